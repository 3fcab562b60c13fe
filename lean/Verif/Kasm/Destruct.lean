import Verif.Kasm.Selfdestruct

/-! SELFDESTRUCT (`asm/core/terminate.asm`). -/

namespace Verif.Kasm

variable {P : Prog} {c : List I} {S s : List Nat} {w w' : World} {ret n i : Nat} {ps ts cs ds : List Nat} {f : Nat → Option Nat}
  {js : List (List Nat)} {a x key p : Nat}

/-- The loop of `contract_just_created`, from the position `i` on: the address is not among those before. -/
theorem run_just_created (hP : P.Has terminateCode) (hc : CreatedAre w cs) : ∀ d i, i + d = cs.length → a ∉ cs.take i →
    Reaches P (exec P b_terminate_11_contract_just_created_loop (i :: cs.length :: a :: S) w)
      (exec P b_terminate_11_after ((if a ∈ cs then 1 else 0) :: S) w) := by
  have hfit := hc.fits
  intro d
  induction d with
  | zero =>
    intro i hi hn
    have hi : i = cs.length := by omega
    subst hi
    rw [List.take_length] at hn
    rw [if_neg hn, b_terminate_11_contract_just_created_loop]
    kexec []
    rw [if_neg (by simp)]
    enter hP in terminateCode
    rw [b_terminate_11_contract_just_created_false]
    generalize b_terminate_11_after = t
    kexec [m_pop3, rep]
    exact .refl _
  | succ d ih =>
    intro i hi hn
    have hi' : i < cs.length := by omega
    rw [b_terminate_11_contract_just_created_loop]
    kexec []
    rw [if_pos (by omega)]
    kexec [m_mload_kernel, m_build_kernel_address]
    rw [wadd_small (by omega), exec_mload_at (by omega), hc.at_ i hi']
    kexec []
    by_cases he : a = cs[i]
    · rw [if_neg (by simpa using he), if_pos (by rw [he]; exact List.getElem_mem hi')]
      enter hP in terminateCode
      rw [b_terminate_11_contract_just_created_true]
      kexec [m_pop3, rep]
      enter hP in terminateCode
      exact .refl _
    · rw [if_pos (by simpa using he)]
      kexec [m_increment, m_add_const]
      rw [wadd_small (by omega), Nat.add_comm 1]
      enter hP in terminateCode
      refine ih (i + 1) (by omega) ?_
      rw [List.take_add_one, List.getElem?_eq_getElem hi']
      simp only [List.mem_append, Option.toList_some, List.mem_singleton]
      exact fun e => e.elim hn he

/-- The entry of the journal for a SELFDESTRUCT of `a` in favour of `r`: none if nothing was moved and there is no account of `r`. -/
def destroyLog (g : Nat → Option Acct) (key a r x : Nat) : List (List Nat) := if x = 0 ∧ g key = none then [] else [[1, a, r, x]]

/-- The end of SELFDESTRUCT: the entry of the journal. -/
theorem run_destroy_log {k r : Nat} (hR : P.ReadsState) (hT : P.Has terminateCode) (h : StateIs w n ps f js ts) (hr : StateRoom w js ts (k + 1))
    (ha' : a < 2 ^ 256) (hr' : r < 2 ^ 256) (hrk : P.addrKey r < u256Max) (hx : x < 2 ^ 256) (hi : x = 0 → AccHonest w 0 ps (P.addrKey r)) :
    ∃ w', Reaches P (exec P b_sys_selfdestruct_journal_add (a :: r :: x :: S) w) (exec P b_sys_selfdestruct_exit S w') ∧
      StateIs w' n ps f (js ++ destroyLog (w.accts f) (P.addrKey r) a r x) ts ∧ w'.accts f = w.accts f ∧ w'.ctx = w.ctx ∧
      (∀ d, ¬ BalCell d → w'.mem d = w.mem d) ∧ StateRoom w' (js ++ destroyLog (w.accts f) (P.addrKey r) a r x) ts k := by
  have key : ∀ {v : World}, StateIs v n ps f js ts → StateRoom v js ts (k + 1) → ∃ w',
      Reaches P (exec P b_sys_selfdestruct_journal_add_after_check (a :: r :: x :: S) v) (exec P b_sys_selfdestruct_exit S w') ∧
      StateIs w' n ps f (js ++ [[1, a, r, x]]) ts ∧ w'.accts f = v.accts f ∧ w'.ctx = v.ctx ∧
      (∀ d, ¬ BalCell d → w'.mem d = v.mem d) ∧ StateRoom w' (js ++ [[1, a, r, x]]) ts k := by
    intro v h hr
    have q1 := hr.data; have q2 := hr.journal
    obtain ⟨s2, t2, g2, r2, -⟩ := push_state (l := [1, a, r, x]) (k := k) h hr (by simp) (by simp; omega)
    refine ⟨_, ?_, s2, g2, t2.1, t2.2.2, r2⟩
    rw [b_sys_selfdestruct_journal_add_after_check]
    kexec [m_journal_add_account_destroyed]
    rw [exec_journal_3 (by omega) (by rw [h.journal.len]; omega)]
    kexec []
    enter hT in terminateCode
    exact .refl _
  by_cases hx0 : x = 0
  · have t1 := looked_state (a := r) h
    have r1 : StateRoom (w.looked r) js ts (k + 1) := ⟨by rw [looked_mem (by simp only [jdatLen]; omega)]; exact hr.data, hr.journal, hr.touched⟩
    have g1 : (w.looked r).accts f = w.accts f := looked_accts
    have hs : Shift 1 BalCell w (w.looked r) := looked_shift
    have hrun := run_read_state (ret := P.addr "terminate@14.after") (S := a :: r :: x :: S) hR h.words h.accounts hrk (hi hx0)
    have hpre : Reaches P (exec P b_sys_selfdestruct_journal_add (a :: r :: x :: S) w)
        (.goto (P.addr "terminate@14.after") ((f (P.addrKey r)).getD 0 :: a :: r :: x :: S) (w.looked r)) := by
      rw [b_sys_selfdestruct_journal_add]
      generalize b_sys_selfdestruct_journal_add_after_check = t
      kexec []
      rw [if_neg (by simpa using hx0)]
      enter hT in terminateCode
      rw [b_skip_journal_entry_if_nonexistent]
      kexec []
      exact hrun
    generalize w.looked r = v at *
    cases hf : f (P.addrKey r) with
    | none =>
      have hA : w.accts f (P.addrKey r) = none := by simp only [World.accts, hf, Option.map_none]
      rw [show destroyLog (w.accts f) (P.addrKey r) a r x = [] by simp [destroyLog, hA, hx0], List.append_nil]
      refine ⟨v, hpre.trans ?_, t1, g1, hs.1, hs.2.2, r1.mono (by omega)⟩
      rw [hf, Option.getD_none]
      enter hT in terminateCode
      rw [b_terminate_14_after]
      kexec []
      rw [if_neg (by simp)]
      enter hT in terminateCode
      rw [b_skip_journal_entry]
      generalize b_sys_selfdestruct_exit = t
      kexec [m_pop3, rep]
      exact .refl _
    | some p =>
      have hp := h.ptr _ _ hf
      have hA : w.accts f (P.addrKey r) ≠ none := by simp [World.accts, hf]
      rw [show destroyLog (w.accts f) (P.addrKey r) a r x = [[1, a, r, x]] by simp [destroyLog, hA]]
      obtain ⟨w', R, e1, e2, e3, e4, e5⟩ := key t1 r1
      refine ⟨w', hpre.trans ?_, e1, e2.trans g1, e3.trans hs.1, fun d hd => (e4 d hd).trans (hs.2.2 d hd), e5⟩
      rw [hf, Option.getD_some]
      enter hT in terminateCode
      rw [b_terminate_14_after]
      kexec []
      rw [if_pos (by simp; omega)]
      enter hT in terminateCode
      exact R
  · rw [show destroyLog (w.accts f) (P.addrKey r) a r x = [[1, a, r, x]] by simp [destroyLog, hx0]]
    obtain ⟨w', R, e1, e2, e3, e4, e5⟩ := key h hr
    refine ⟨w', ?_, e1, e2, e3, e4, e5⟩
    rw [b_sys_selfdestruct_journal_add]
    generalize b_sys_selfdestruct_journal_add_after_check = t at *
    kexec []
    rw [if_pos (by simpa using hx0)]
    exact R

/-- What the recipient `r` of a SELFDESTRUCT of `a` is paid out of the balance `x`: nothing if the contract is to be deleted and is its own recipient. -/
def payout (cs : List Nat) (a r x : Nat) : Nat := if a ∈ cs ∧ a = r then 0 else x

/-- The entries of the journal for a SELFDESTRUCT of `a` in favour of `r`, when the accounts are `g` after the balance `x` has been taken away. -/
def destructLog (g : Nat → Option Acct) (ts cs : List Nat) (key a r x : Nat) : List (List Nat) :=
  touchLog ts r ++ createLog g key r (payout cs a r x) ++ destroyLog g key a r x

/-- SELFDESTRUCT, from the point where gas has been charged and the account of the contract `a` has been read, at the record `p`. -/
theorem run_selfdestruct {k r K : Nat} {A : Acct} (hP : P.Pays) (hI : P.Has stateInsertCode) (hT : P.Has terminateCode) (h : StateIs w n ps f js ts)
    (hr : StateRoom w js ts (k + 3)) (hn : AccRoom w n) (hc : CreatedAre w cs) (hd : DeadAre w ds) (hdl : ds.length < 2 ^ 32)
    (ha' : a < 2 ^ 256) (hr' : r < 2 ^ 256) (hrk : P.addrKey r < u256Max) (hf : f (P.addrKey a) = some p) (hA : w.accts f (P.addrKey a) = some A)
    (hi : AccHonest w 0 ps (P.addrKey r)) (hi' : AccHonest w 1 ps (P.addrKey r)) :
    ∃ w' n' ps' f', Reaches P (.goto (P.addr "terminate@10.after") (p :: 0 :: A.balance :: a :: r :: K :: S) w) (exec P b_sys_selfdestruct_exit (K :: S) w') ∧
      StateIs w' n' ps' f' (js ++ destructLog (updAcct (w.accts f) (P.addrKey a) { A with balance := 0 }) ts cs (P.addrKey r) a r A.balance) (touchList ts r) ∧
      w'.accts f' = credit (updAcct (w.accts f) (P.addrKey a) { A with balance := 0 }) (P.addrKey r) (payout cs a r A.balance) ∧
      CreatedAre w' cs ∧ DeadAre w' (if a ∈ cs then ds ++ [a] else ds) ∧ w'.ctx = w.ctx ∧ (∀ d, ¬ PayCell d → ¬ DeadArea d → w'.mem d = w.mem d) := by
  have hp := h.ptr _ _ hf
  have hAp : A = w.record p := by simp only [World.accts, hf, Option.map_some, Option.some.injEq] at hA; exact hA.symm
  have hb : A.balance < 2 ^ 256 := by rw [hAp]; exact h.words _
  -- the balance
  obtain ⟨u1, u2, u3, u4⟩ := record_set (d := 1) (v := 0) h hf (by omega) (by omega)
  rw [record_set_balance, ← hAp] at u3
  have r1 : StateRoom (w.set (0xc00000000 + p + 1) 0) js ts (k + 3) := ⟨by rw [u4]; exact hr.data, hr.journal, hr.touched⟩
  have c1 : CreatedAre (w.set (0xc00000000 + p + 1) 0) cs := CreatedAre.of_same hc fun b hb => u2.2.2 b fun e => (stateCell_created hb).2.1 (.inl e)
  have hstart : Reaches P (.goto (P.addr "terminate@10.after") (p :: 0 :: A.balance :: a :: r :: K :: S) w)
      (exec P b_terminate_11_after ((if a ∈ cs then 1 else 0) :: A.balance :: a :: r :: K :: S) (w.set (0xc00000000 + p + 1) 0)) := by
    have := run_just_created (a := a) (S := A.balance :: a :: r :: K :: S) hT c1 cs.length 0 (by omega) (by simp)
    enter hT in terminateCode
    rw [b_terminate_10_after]
    generalize b_terminate_11_contract_just_created_loop = t at *
    kexec [m_add_const]
    rw [wadd_small (by omega), exec_mstore_trie (by omega), show 0xc00000000 + (1 + p) = 0xc00000000 + p + 1 by omega]
    kexec []
    rw [exec_load_global (by omega), c1.len]
    kexec []
    exact this
  have d1 : DeadAre (w.set (0xc00000000 + p + 1) 0) ds := DeadAre.of_same hd fun b hb => u2.2.2 b fun e => (stateCell_dead hb).2.1 (.inl e)
  have i1 : AccHonest (w.set (0xc00000000 + p + 1) 0) 0 ps (P.addrKey r) := u2.honest (j := 0) h.accounts hi
  have i1' : AccHonest (w.set (0xc00000000 + p + 1) 0) 1 ps (P.addrKey r) := u2.honest (j := 1) h.accounts hi'
  have n1 := hn.shift u2
  generalize w.set (0xc00000000 + p + 1) 0 = w1 at *
  rw [← u3]
  -- the recipient
  have hpay : payout cs a r A.balance < 2 ^ 256 := by simp only [payout]; split <;> omega
  obtain ⟨w2, n2, ps2, f2, R2, s2, g2, c2, m2, r2, e2⟩ := run_add_eth (k := k + 1) (x := payout cs a r A.balance)
    (ret := P.addr (if a ∈ cs then "terminate@15.after" else "terminate@12.after")) (S := a :: r :: A.balance :: K :: S) hP hI u1 r1 n1 hrk hr' hpay i1 i1'
  have hmid : Reaches P (exec P b_terminate_11_after ((if a ∈ cs then 1 else 0) :: A.balance :: a :: r :: K :: S) w1)
      (.goto (P.addr (if a ∈ cs then "terminate@15.after" else "terminate@12.after")) (a :: r :: A.balance :: K :: S) w2) := by
    by_cases hac : a ∈ cs
    · simp only [if_pos hac] at R2 ⊢
      rw [b_terminate_11_after]
      kexec []
      enter hT in terminateCode
      rw [b_sys_selfdestruct_just_created]
      kexec []
      refine .trans ?_ R2
      rw [show wmul (wiszero (weq a r)) A.balance = payout cs a r A.balance by
        simp only [payout, hac, true_and, wmul, wiszero, weq]
        by_cases e : a = r
        · simp [e]
        · simp only [e, if_false, if_true, Nat.one_mul]; exact Nat.mod_eq_of_lt hb]
      exact .refl _
    · simp only [if_neg hac] at R2 ⊢
      rw [b_terminate_11_after]
      kexec []
      rw [show payout cs a r A.balance = A.balance by simp [payout, hac]] at R2
      exact R2
  have d2 : DeadAre w2 ds := DeadAre.of_same d1 fun b hb => m2 b (stateCell_dead hb).2.1
  have cr2 : CreatedAre w2 cs := CreatedAre.of_same c1 fun b hb => m2 b (stateCell_created hb).2.1
  have hz : A.balance = 0 → payout cs a r A.balance = 0 := fun e => by simp [payout, e]
  have i2 : A.balance = 0 → AccHonest w2 0 ps2 (P.addrKey r) := fun e => by
    obtain ⟨-, rfl, -, m, hm, hs⟩ := e2 (.inl (hz e))
    have := hm (hz e)
    subst this
    exact hs.honest (j := 0) u1.accounts i1
  have glog : destroyLog (w2.accts f2) (P.addrKey r) a r A.balance = destroyLog (w1.accts f) (P.addrKey r) a r A.balance := by
    simp only [destroyLog]
    by_cases e : A.balance = 0
    · rw [g2, hz e]; simp [credit]
    · simp [e]
  -- the list of accounts to delete
  obtain ⟨w3, R3, s3, g3, c3, m3, r3, d3⟩ : ∃ w3, Reaches P (.goto (P.addr (if a ∈ cs then "terminate@15.after" else "terminate@12.after")) (a :: r :: A.balance :: K :: S) w2)
      (exec P b_sys_selfdestruct_journal_add (a :: r :: A.balance :: K :: S) w3) ∧ StateIs w3 n2 ps2 f2 (js ++ touchLog ts r ++ createLog (w1.accts f) (P.addrKey r) r (payout cs a r A.balance)) (touchList ts r) ∧
      w3.accts f2 = w2.accts f2 ∧ w3.ctx = w2.ctx ∧ (∀ b, ¬ DeadArea b → w3.mem b = w2.mem b) ∧
      w3.inp = w2.inp ∧ DeadAre w3 (if a ∈ cs then ds ++ [a] else ds) := by
    by_cases hac : a ∈ cs
    · simp only [if_pos hac]
      have hm : ∀ b, ¬ DeadArea b → (w2.listed 0x1600000000 0x50000001e a).mem b = w2.mem b := fun b hb => listed_dead d2 hdl hb
      refine ⟨w2.listed 0x1600000000 0x50000001e a, ?_, s2.congr (listed_words s2.words ha' (by have := d2.len; omega)) fun b hb => hm b fun e => (stateCell_dead e).1 hb,
        s2.accts_congr fun b h1 h2 => hm b fun e => (stateCell_dead e).1 (.inr (.inr (.inl ⟨h1, h2⟩))), rfl, hm, rfl, ListAt.push d2 (by omega) hdl⟩
      enter hT in terminateCode
      rw [b_terminate_15_after]
      kexec []
      rw [exec_insert_dead (by have := d2.len; omega)]
      kexec []
      enter hT in terminateCode
      exact .refl _
    · simp only [if_neg hac]
      refine ⟨w2, ?_, s2, rfl, rfl, fun _ _ => rfl, rfl, d2⟩
      enter hT in terminateCode
      rw [b_terminate_12_after]
      exact .refl _
  have hne : ∀ b, StateCell b → w3.mem b = w2.mem b := fun b hb => m3 b fun e => (stateCell_dead e).1 hb
  -- the journal
  obtain ⟨w4, R4, s4, g4, c4, m4, -⟩ := run_destroy_log (k := k) (S := K :: S) (x := A.balance) (a := a) (r := r) hP.reads hT s3
    ⟨by rw [hne _ (.inl (.inr (.inl rfl)))]; exact r2.data, r2.journal, r2.touched⟩ ha' hr' hrk hb
    fun e => (i2 e).of_same (fun b h1 h2 => hne b (.inr (.inr (.inr (.inl ⟨h1, h2⟩))))) (by rw [r3]) s2.accounts
  rw [g3, glog, List.append_assoc, List.append_assoc, ← List.append_assoc (touchLog ts r)] at s4
  refine ⟨w4, n2, ps2, f2, hstart.trans (hmid.trans (R3.trans R4)), s4, by rw [g4, g3, g2], ?_, ?_, c4.trans (c3.trans (c2.trans u2.1)), fun d h1 h2 => ?_⟩
  · exact CreatedAre.of_same cr2 fun b hb => (m4 b fun e => (stateCell_created hb).2.1 (.inl e)).trans (m3 b (stateCell_created hb).2.2)
  · exact DeadAre.of_same d3 fun b hb => m4 b fun e => (stateCell_dead hb).2.1 (.inl e)
  · rw [m4 d fun e => h1 (.inl e), m3 d h2, m2 d h1, u2.2.2 d fun e => h1 (.inl e)]

end Verif.Kasm
