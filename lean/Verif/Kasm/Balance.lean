import Verif.Kasm.Storage
import Verif.Kasm.Touched
import Verif.Kasm.Code.Transfer
import Verif.Kasm.Code.AccountCode

/-! Reading and changing nonce and balance of accounts (`asm/core/nonce.asm`, `asm/balance.asm`, `asm/core/transfer.asm`). -/

namespace Verif.Kasm

variable {P : Prog} {c : List I} {S s : List Nat} {w w' : World} {ret n i : Nat} {ps ts : List Nat} {f : Nat → Option Nat}
  {js : List (List Nat)} {a x key p : Nat}

/-! ### Accounts in memory -/

/-- What the kernel reads of an account here. -/
structure Acct where
  nonce : Nat
  balance : Nat
  codeHash : Nat
  deriving DecidableEq

/-- The hash of no code (`constants/mod.rs`, `EMPTY_STRING_HASH`). -/
abbrev emptyHash : Nat := 0xc5d2460186f7233c927e7db2dcc703c0e500b653ca82273b7bfad8045d85a470

/-- The account whose record is at `p` in the trie data: nonce, balance, storage root, code hash (`asm/mpt/read.asm:1-3`). -/
def World.record (w : World) (p : Nat) : Acct := ⟨w.mem (0xc00000000 + p), w.mem (0xc00000000 + p + 1), w.mem (0xc00000000 + p + 3)⟩

/-- The accounts the list in memory gives. -/
def World.accts (w : World) (f : Nat → Option Nat) (key : Nat) : Option Acct := (f key).map w.record

/-- The account with a key; an account that is not there counts as one without nonce, balance and code. -/
def World.acct (w : World) (f : Nat → Option Nat) (key : Nat) : Acct := (w.accts f key).getD ⟨0, 0, emptyHash⟩

/-- The state in memory: the list of accounts, their records, which do not overlap, the journal and the touched addresses. -/
structure StateIs (w : World) (n : Nat) (ps : List Nat) (f : Nat → Option Nat) (js : List (List Nat)) (ts : List Nat) : Prop where
  words : Words w
  accounts : AccountsAre w n ps f
  ptr : ∀ key p, f key = some p → 0 < p ∧ p + 4 ≤ 2 ^ 32
  apart : ∀ k k' p p', f k = some p → f k' = some p' → k ≠ k' → p + 4 ≤ p' ∨ p' + 4 ≤ p
  null : w.mem 0xc00000000 = 0
  journal : JournalIs w js
  touched : TouchedAre w ts
  size : 0 < w.mem 0x500000002 ∧ ∀ key p, f key = some p → p + 4 ≤ w.mem 0x500000002

/-- Room for `k` more entries of the journal and of the touched addresses. -/
structure StateRoom (w : World) (js : List (List Nat)) (ts : List Nat) (k : Nat) : Prop where
  data : w.mem jdatLen + 4 * k ≤ 2 ^ 32
  journal : js.length + k ≤ 2 ^ 32
  touched : ts.length + k ≤ 2 ^ 32

theorem StateRoom.mono {k k' : Nat} (h : StateRoom w js ts k) (hk : k' ≤ k) : StateRoom w js ts k' :=
  ⟨by have := h.data; omega, by have := h.journal; omega, by have := h.touched; omega⟩

/-- The cells that change: those used for hashing, the journal, the touched addresses and the records of accounts. -/
def BalCell (b : Nat) : Prop :=
  (0x700000000 ≤ b ∧ b < 0x700000020) ∨ JourArea b ∨ TouchArea b ∨ (0xc00000000 < b ∧ b < 0xd00000000)

theorem balCell_acc {b : Nat} (h : accBase ≤ b ∧ b < accBase + 2 ^ 32 ∨ b = accNext) : ¬ BalCell b := by
  simp only [BalCell, JourArea, TouchArea, touchLen, touchBase, jourLen, jdatLen, jourBase, jdatBase, accBase, accNext] at *; omega

theorem balCell_size : ¬ BalCell 0x500000002 := by
  simp only [BalCell, JourArea, TouchArea, touchLen, touchBase, jourLen, jdatLen, jourBase, jdatBase]; omega

theorem Shift.accounts (h : Shift i BalCell w w') (hA : AccountsAre w n ps f) : AccountsAre w' n ps f :=
  hA.congr (h.2.2 _ (balCell_acc (.inr rfl))) fun b h1 h2 => h.2.2 b (balCell_acc (.inl ⟨h1, h2⟩))

theorem AccHonest.of_same {j : Nat} (hm : ∀ b, accBase ≤ b → b < accBase + 2 ^ 32 → w'.mem b = w.mem b) (hj : w'.inp j = w.inp i)
    (hA : AccountsAre w n ps f) (hi : AccHonest w i ps key) : AccHonest w' j ps key := by
  obtain ⟨h1, h2, h3⟩ := hi
  have hr := hA.1.room
  have hb := hA.1.ptr_bound h1
  have hb2 := hA.1.ptr_bound (hA.1.next_mem h1)
  simp only [AccHonest, hj]
  rw [hm _ (by omega) (by omega), hm (4 * w.inp i + 3) (by omega) (by omega), hm _ (by omega) (by omega)]
  exact ⟨h1, h2, h3⟩

theorem Shift.honest {j : Nat} (h : Shift i BalCell w w') (hA : AccountsAre w n ps f) (hi : AccHonest w (j + i) ps key) : AccHonest w' j ps key :=
  hi.of_same (fun b h1 h2 => h.2.2 b (balCell_acc (.inl ⟨h1, h2⟩))) (h.2.1 j) hA

theorem looked_shift : Shift 1 BalCell w (w.looked a) :=
  ⟨looked_ctx, fun j => looked_inp, fun b hb => looked_mem (by
    have : ¬ (0x700000000 ≤ b ∧ b < 0x700000020) := fun e => hb (.inl e)
    omega)⟩

theorem looked_record (p : Nat) : (w.looked a).record p = w.record p := by
  simp only [World.record]
  rw [looked_mem (by omega), looked_mem (by omega), looked_mem (by omega)]

theorem looked_state (h : StateIs w n ps f js ts) : StateIs (w.looked a) n ps f js ts :=
  ⟨looked_words h.words, looked_accounts h.accounts, h.ptr, h.apart, by rw [looked_mem (by omega)]; exact h.null,
    h.journal.congr fun b hb => looked_mem (by simp only [JourArea, jourLen, jdatLen, jourBase, jdatBase] at hb; omega),
    h.touched.congr fun b hb => looked_mem (by simp only [TouchArea, touchLen, touchBase] at hb; omega),
    by rw [looked_mem (by omega)]; exact h.size⟩

theorem looked_accts : (w.looked a).accts f = w.accts f := by
  funext k
  simp only [World.accts]
  congr 1
  funext p
  exact looked_record p

/-! ### Reading -/

section
variable (hR : P.ReadsState) (hT : P.Has transferCode)

include hR hT in
/-- `nonce`. -/
theorem run_nonce (h : StateIs w n ps f js ts) (ha : P.addrKey a < u256Max) (hi : AccHonest w 0 ps (P.addrKey a)) :
    Reaches P (.goto (P.addr "nonce") (a :: ret :: S) w) (.goto ret ((w.acct f (P.addrKey a)).nonce :: S) (w.looked a)) := by
  enter hT in transferCode
  rw [b_nonce]
  kexec []
  refine (run_read_state hR h.words h.accounts ha hi).trans ?_
  enter hT in transferCode
  rw [b_nonce_1_after]
  have hn := (looked_state (a := a) h).null
  have hr := looked_record (w := w) (a := a)
  cases hf : f (P.addrKey a) with
  | none =>
    rw [Option.getD_none, exec_mload_trie (by omega), hn]
    kexec []
    simp only [World.acct, World.accts, hf]
    exact .refl _
  | some p =>
    have hp := h.ptr _ _ hf
    rw [Option.getD_some, exec_mload_trie (by omega)]
    kexec []
    have : (w.looked a).mem (0xc00000000 + p) = (w.record p).nonce := by rw [← hr p]; rfl
    simp only [World.acct, World.accts, hf, this]
    exact .refl _

include hR hT in
/-- `balance`. -/
theorem run_balance (h : StateIs w n ps f js ts) (ha : P.addrKey a < u256Max) (hi : AccHonest w 0 ps (P.addrKey a)) :
    Reaches P (.goto (P.addr "balance") (a :: ret :: S) w) (.goto ret ((w.acct f (P.addrKey a)).balance :: S) (w.looked a)) := by
  enter hT in transferCode
  rw [b_balance]
  kexec []
  refine (run_read_state hR h.words h.accounts ha hi).trans ?_
  enter hT in transferCode
  rw [b_balance_3_after]
  have hr := looked_record (w := w) (a := a)
  cases hf : f (P.addrKey a) with
  | none =>
    rw [Option.getD_none]
    kexec []
    rw [if_neg (by simp)]
    enter hT in transferCode
    rw [b_retzero_balance]
    kexec []
    simp only [World.acct, World.accts, hf]
    exact .refl _
  | some p =>
    have hp := h.ptr _ _ hf
    rw [Option.getD_some]
    kexec [m_add_const]
    rw [if_pos (by omega), wadd_small (by omega), exec_mload_trie (by omega)]
    kexec []
    have : (w.looked a).mem (0xc00000000 + (1 + p)) = (w.record p).balance := by
      rw [← hr p, show 0xc00000000 + (1 + p) = 0xc00000000 + p + 1 by omega]; rfl
    simp only [World.acct, World.accts, hf, this]
    exact .refl _

include hR in
/-- `extcodehash` (the routine, not the instruction): 0 if there is no such account. -/
theorem run_extcodehash (hC : P.Has accountCodeCode) (h : StateIs w n ps f js ts) (ha : P.addrKey a < u256Max) (hi : AccHonest w 0 ps (P.addrKey a)) :
    Reaches P (.goto (P.addr "extcodehash") (a :: ret :: S) w)
      (.goto ret ((w.accts f (P.addrKey a)).elim 0 Acct.codeHash :: S) (w.looked a)) := by
  enter hC in accountCodeCode
  rw [b_extcodehash]
  kexec []
  refine (run_read_state hR h.words h.accounts ha hi).trans ?_
  enter hC in accountCodeCode
  rw [b_account_code_8_after]
  have hr := looked_record (w := w) (a := a)
  cases hf : f (P.addrKey a) with
  | none =>
    rw [Option.getD_none]
    kexec []
    rw [if_neg (by simp)]
    enter hC in accountCodeCode
    rw [b_retzero_account_code]
    kexec []
    simp only [World.accts, hf]
    exact .refl _
  | some p =>
    have hp := h.ptr _ _ hf
    rw [Option.getD_some]
    kexec [m_add_const]
    rw [if_pos (by omega), wadd_small (by omega), exec_mload_trie (by omega)]
    kexec []
    have : (w.looked a).mem (0xc00000000 + (3 + p)) = (w.record p).codeHash := by
      rw [← hr p, show 0xc00000000 + (3 + p) = 0xc00000000 + p + 3 by omega]; rfl
    simp only [World.accts, hf, this]
    exact .refl _

end

/-! ### Writing -/

theorem exec_mstore_trie {q v : Nat} (hq : q < 2 ^ 32) :
    exec P (m_mstore_trie_data ++ c) (q :: v :: s) w = exec P c s (w.set (0xc00000000 + q) v) := by
  kexec [m_mstore_trie_data, m_mstore_kernel1, m_build_kernel_address]
  rw [wadd_small (by omega), exec_mstore_at (by omega)]

/-- The accounts after one has changed. -/
def updAcct (g : Nat → Option Acct) (key : Nat) (A : Acct) : Nat → Option Acct := fun k => if k = key then some A else g k

/-- Writing to the record of an account changes no other account. -/
theorem record_set {d v : Nat} (h : StateIs w n ps f js ts) (hf : f key = some p) (hd : d < 4) (hv : v < 2 ^ 256) :
    StateIs (w.set (0xc00000000 + p + d) v) n ps f js ts ∧ Shift 0 BalCell w (w.set (0xc00000000 + p + d) v) ∧
      (w.set (0xc00000000 + p + d) v).accts f = updAcct (w.accts f) key ((w.set (0xc00000000 + p + d) v).record p) ∧
      (w.set (0xc00000000 + p + d) v).mem jdatLen = w.mem jdatLen := by
  have hp := h.ptr _ _ hf
  have hs : Shift 0 BalCell w (w.set (0xc00000000 + p + d) v) :=
    ⟨rfl, fun _ => rfl, fun b hb => set_ne (fun e => hb (.inr (.inr (.inr (by omega)))))⟩
  refine ⟨⟨h.words.set hv, hs.accounts h.accounts, h.ptr, h.apart, by rw [set_ne (by omega)]; exact h.null,
    h.journal.congr fun b hb => set_ne (by simp only [JourArea, jourLen, jdatLen, jourBase, jdatBase] at hb; omega),
    h.touched.congr fun b hb => set_ne (by simp only [TouchArea, touchLen, touchBase] at hb; omega),
    by rw [set_ne (by omega)]; exact h.size⟩, hs, ?_, set_ne (by simp only [jdatLen]; omega)⟩
  funext k
  by_cases hk : k = key
  · subst hk
    simp only [World.accts, updAcct, hf, if_true, Option.map_some]
  · simp only [updAcct, if_neg hk, World.accts]
    cases hf' : f k with
    | none => rfl
    | some p' =>
      have := h.apart _ _ _ _ hf' hf hk
      have := h.ptr _ _ hf'
      simp only [Option.map_some, World.record]
      rw [set_ne (by omega), set_ne (by omega), set_ne (by omega)]

theorem record_set_balance {v : Nat} : (w.set (0xc00000000 + p + 1) v).record p = { w.record p with balance := v } := by
  simp only [World.record, set_same]
  rw [set_ne (by omega), set_ne (by omega)]

theorem record_set_nonce {v : Nat} : (w.set (0xc00000000 + p + 0) v).record p = { w.record p with nonce := v } := by
  simp only [World.record, Nat.add_zero, set_same]
  rw [set_ne (by omega), set_ne (by omega)]

/-- What touching an address does to the state. -/
def touchLog (ts : List Nat) (a : Nat) : List (List Nat) := if a ∈ ts then [] else [[2, a]]
def touchList (ts : List Nat) (a : Nat) : List Nat := if a ∈ ts then ts else ts ++ [a]

theorem touch_state {k : Nat} (h : StateIs w n ps f js ts) (hr : StateRoom w js ts (k + 1)) (ha : a < 2 ^ 256) :
    StateIs (if a ∈ ts then w else w.touch a) n ps f (js ++ touchLog ts a) (touchList ts a) ∧
      Shift 0 BalCell w (if a ∈ ts then w else w.touch a) ∧ (if a ∈ ts then w else w.touch a).accts f = w.accts f ∧
      StateRoom (if a ∈ ts then w else w.touch a) (js ++ touchLog ts a) (touchList ts a) k := by
  by_cases hm : a ∈ ts
  · simp only [touchLog, touchList, if_pos hm, List.append_nil]
    exact ⟨h, .refl, trivial, hr.mono (by omega)⟩
  · simp only [touchLog, touchList, if_neg hm]
    have r1 := hr.data; have r2 := hr.journal; have r3 := hr.touched
    obtain ⟨h1, h2, h3, h4, h5⟩ := touch_spec (a := a) h.words h.journal h.touched (by omega) (by omega) (by omega) ha
    have hs : Shift 0 BalCell w (w.touch a) := h3.frame.mono fun b hb => hb.elim (fun e => .inr (.inl e)) fun e => .inr (.inr (.inl e))
    have hm' : ∀ b, 0xc00000000 ≤ b → b < 0xd00000000 → (w.touch a).mem b = w.mem b := fun b h1 h2 => h3.2.2 b (by
      simp only [JourArea, TouchArea, touchLen, touchBase, jourLen, jdatLen, jourBase, jdatBase]; omega)
    refine ⟨⟨h4, hs.accounts h.accounts, h.ptr, h.apart, by rw [hm' _ (by omega) (by omega)]; exact h.null, h1, h2,
      by rw [hs.2.2 _ balCell_size]; exact h.size⟩, hs, ?_, ?_⟩
    · funext k
      simp only [World.accts]
      cases hf : f k with
      | none => rfl
      | some p =>
        have := h.ptr _ _ hf
        simp only [Option.map_some, World.record]
        rw [hm' _ (by omega) (by omega), hm' _ (by omega) (by omega), hm' _ (by omega) (by omega)]
    · exact ⟨by rw [h5]; omega, by simp; omega, by simp; omega⟩

/-- The kernel has the routines that change balances and nonces. -/
structure Prog.Pays (P : Prog) : Prop where
  reads : P.ReadsState
  touched : P.Has touchedCode
  transfer : P.Has transferCode

/-- What is left after `x` has been taken from a balance. -/
def taken (A : Acct) (x : Nat) : Acct := { A with balance := A.balance - x }

/-- `deduct_eth` (`asm/core/transfer.asm:29-55`): status 0 and `x` less in the balance, or status 1 and no change of accounts if there is no such account or its
balance is less than `x`. -/
theorem run_deduct {k : Nat} (hP : P.Pays) (h : StateIs w n ps f js ts) (hr : StateRoom w js ts (k + 1)) (ha : P.addrKey a < u256Max) (ha' : a < 2 ^ 256)
    (hi : AccHonest w 0 ps (P.addrKey a)) :
    ∃ w', Shift 1 BalCell w w' ∧ StateIs w' n ps f (js ++ touchLog ts a) (touchList ts a) ∧ StateRoom w' (js ++ touchLog ts a) (touchList ts a) k ∧
      ((∃ A, w.accts f (P.addrKey a) = some A ∧ x ≤ A.balance ∧ w'.accts f = updAcct (w.accts f) (P.addrKey a) (taken A x) ∧
        Reaches P (.goto (P.addr "deduct_eth") (a :: x :: ret :: S) w) (.goto ret (0 :: S) w')) ∨
      ((∀ A, w.accts f (P.addrKey a) = some A → A.balance < x) ∧ w'.accts f = w.accts f ∧
        Reaches P (.goto (P.addr "deduct_eth") (a :: x :: ret :: S) w) (.goto ret (1 :: S) w'))) := by
  have r1 := hr.data; have r2 := hr.journal; have r3 := hr.touched
  obtain ⟨s1, s2, s3, s4⟩ := touch_state (a := a) h hr ha'
  have hrun := run_insert_touched (P := P) (a := a) (ret := P.addr "transfer@3.after") (S := a :: x :: ret :: S) hP.touched h.words h.journal h.touched
    (by omega) (by omega) (by omega)
  generalize hw1 : (if a ∈ ts then w else w.touch a) = w1 at *
  have hi1 := s2.honest h.accounts hi
  have hread := run_read_state (ret := P.addr "transfer@4.after") (S := x :: ret :: S) hP.reads s1.words s1.accounts ha hi1
  have t1 := looked_state (a := a) s1
  have t2 : Shift 1 BalCell w (w1.looked a) := Shift.trans (i := 0) s2 looked_shift
  have t3 : (w1.looked a).accts f = w.accts f := looked_accts.trans s3
  have t4 : StateRoom (w1.looked a) (js ++ touchLog ts a) (touchList ts a) k :=
    ⟨by rw [looked_mem (by simp only [jdatLen]; omega)]; exact s4.data, s4.journal, s4.touched⟩
  have hpre : Reaches P (.goto (P.addr "deduct_eth") (a :: x :: ret :: S) w)
      (.goto (P.addr "transfer@4.after") ((f (P.addrKey a)).getD 0 :: x :: ret :: S) (w1.looked a)) := by
    enter hP.transfer in transferCode
    rw [b_deduct_eth]
    kexec []
    refine hrun.trans ?_
    enter hP.transfer in transferCode
    rw [b_transfer_3_after]
    kexec []
    exact hread
  generalize w1.looked a = w2 at *
  cases hf : f (P.addrKey a) with
  | none =>
    refine ⟨w2, t2, t1, t4, .inr ⟨fun A hA => ?_, t3, hpre.trans ?_⟩⟩
    · simp [World.accts, hf] at hA
    · rw [hf, Option.getD_none]
      enter hP.transfer in transferCode
      rw [b_transfer_4_after]
      kexec []
      rw [if_neg (by simp)]
      enter hP.transfer in transferCode
      rw [b_deduct_eth_no_such_account]
      kexec []
      exact .refl _
  | some p =>
    have hp := h.ptr _ _ hf
    have hA : w2.accts f (P.addrKey a) = some (w2.record p) := by simp only [World.accts, hf, Option.map_some]
    rw [t3] at hA
    by_cases hx : x ≤ (w2.record p).balance
    · have hb : (w2.record p).balance < 2 ^ 256 := t1.words _
      have hb' : (w2.record p).balance - x < 2 ^ 256 := by omega
      obtain ⟨u1, u2, u3, u4⟩ := record_set (d := 1) (v := (w2.record p).balance - x) t1 hf (by omega) hb'
      refine ⟨_, Shift.trans (j := 0) t2 u2, u1, ⟨by rw [u4]; exact t4.data, t4.journal, t4.touched⟩, .inl ⟨_, hA, hx, ?_, hpre.trans ?_⟩⟩
      · rw [u3, record_set_balance, t3]; rfl
      · rw [hf, Option.getD_some]
        enter hP.transfer in transferCode
        rw [b_transfer_4_after]
        kexec [m_add_const]
        rw [if_pos (by omega), wadd_small (by omega), exec_mload_trie (by omega), show 0xc00000000 + (1 + p) = 0xc00000000 + p + 1 by omega]
        rw [show w2.mem (0xc00000000 + p + 1) = (w2.record p).balance from rfl]
        kexec []
        rw [if_pos (by omega), wsub_small hx (by omega)]
        rw [exec_mstore_trie (by omega), show 0xc00000000 + (1 + p) = 0xc00000000 + p + 1 by omega]
        kexec []
        exact .refl _
    · refine ⟨w2, t2, t1, t4, .inr ⟨fun A hA' => ?_, t3, hpre.trans ?_⟩⟩
      · rw [hA] at hA'; cases hA'; omega
      · rw [hf, Option.getD_some]
        enter hP.transfer in transferCode
        rw [b_transfer_4_after]
        kexec [m_add_const]
        rw [if_pos (by omega), wadd_small (by omega), exec_mload_trie (by omega), show 0xc00000000 + (1 + p) = 0xc00000000 + p + 1 by omega]
        rw [show w2.mem (0xc00000000 + p + 1) = (w2.record p).balance from rfl]
        kexec []
        rw [if_neg (by omega)]
        enter hP.transfer in transferCode
        rw [b_deduct_eth_insufficient_balance]
        kexec []
        exact .refl _

/-- `increment_nonce` (`asm/core/nonce.asm:23-42`) for an account that is there. -/
theorem run_increment_nonce {k : Nat} {A : Acct} (hP : P.Pays) (h : StateIs w n ps f js ts) (hr : StateRoom w js ts (k + 1)) (ha : P.addrKey a < u256Max) (ha' : a < 2 ^ 256)
    (hi : AccHonest w 0 ps (P.addrKey a)) (hA : w.accts f (P.addrKey a) = some A) (hn : A.nonce < 2 ^ 64) :
    ∃ w', Shift 1 BalCell w w' ∧ StateIs w' n ps f (js ++ [[4, a, A.nonce]]) ts ∧ StateRoom w' (js ++ [[4, a, A.nonce]]) ts k ∧
      w'.accts f = updAcct (w.accts f) (P.addrKey a) { A with nonce := A.nonce + 1 } ∧
      Reaches P (.goto (P.addr "increment_nonce") (a :: ret :: S) w) (.goto ret S w') := by
  have r1 := hr.data; have r2 := hr.journal; have r3 := hr.touched
  cases hf : f (P.addrKey a) with
  | none => simp [World.accts, hf] at hA
  | some p =>
  have hp := h.ptr _ _ hf
  have hread := run_read_state (ret := P.addr "nonce@2.after") (S := a :: ret :: S) hP.reads h.words h.accounts ha hi
  have t1 := looked_state (a := a) h
  have t2 : Shift 1 BalCell w (w.looked a) := looked_shift
  have t3 : (w.looked a).accts f = w.accts f := looked_accts
  have t4 : (w.looked a).mem jdatLen = w.mem jdatLen := looked_mem (by simp only [jdatLen]; omega)
  have hpre : Reaches P (.goto (P.addr "increment_nonce") (a :: ret :: S) w)
      (.goto (P.addr "nonce@2.after") (p :: a :: ret :: S) (w.looked a)) := by
    rw [hf, Option.getD_some] at hread
    enter hP.transfer in transferCode
    rw [b_increment_nonce]
    kexec []
    exact hread
  generalize w.looked a = w2 at *
  have hA2 : w2.accts f (P.addrKey a) = some (w2.record p) := by simp only [World.accts, hf, Option.map_some]
  rw [t3, hA] at hA2
  cases hA2
  have hn' : w2.mem (0xc00000000 + p) = (w2.record p).nonce := rfl
  obtain ⟨j1, j2, j3, j4⟩ := t1.journal.push (l := [4, a, (w2.record p).nonce]) t1.words (by rw [t4]; simp; omega) (by omega) (by simp; omega)
  have hm : ∀ b, ¬ JourArea b → (pushEntry w2 [4, a, (w2.record p).nonce]).mem b = w2.mem b := j2.2.2
  have hmt : ∀ b, 0xc00000000 ≤ b → b < 0xd00000000 → (pushEntry w2 [4, a, (w2.record p).nonce]).mem b = w2.mem b := fun b h1 h2 => hm b (by
      simp only [JourArea, jourLen, jdatLen, jourBase, jdatBase]; omega)
  obtain ⟨w3, hw3⟩ : ∃ w3, w3 = pushEntry w2 [4, a, (w2.record p).nonce] := ⟨_, rfl⟩
  rw [← hw3] at j1 j2 j3 j4 hm hmt
  have k2 : Shift 0 BalCell w2 w3 := j2.frame.mono fun b hb => .inr (.inl hb)
  have k1 : StateIs w3 n ps f (js ++ [[4, a, (w2.record p).nonce]]) ts :=
    ⟨j3, k2.accounts t1.accounts, h.ptr, h.apart, by rw [hmt _ (by omega) (by omega)]; exact t1.null, j1,
      t1.touched.congr fun b hb => hm b (by simp only [JourArea, TouchArea, touchLen, touchBase, jourLen, jdatLen, jourBase, jdatBase] at *; omega),
      by rw [k2.2.2 _ balCell_size]; exact t1.size⟩
  have k3 : ∀ q, q + 4 ≤ 2 ^ 32 → w3.record q = w2.record q := fun q hq => by
    simp only [World.record]
    rw [hmt _ (by omega) (by omega), hmt _ (by omega) (by omega), hmt _ (by omega) (by omega)]
  have k4 : w3.accts f = w2.accts f := by
    funext k
    simp only [World.accts]
    cases hf : f k with
    | none => rfl
    | some q => simp only [Option.map_some]; rw [k3 q (h.ptr _ _ hf).2]
  obtain ⟨u1, u2, u3, u4⟩ := record_set (d := 0) (v := (w2.record p).nonce + 1) k1 hf (by omega) (by omega)
  refine ⟨_, Shift.trans (j := 0) (Shift.trans (j := 0) t2 k2) u2, u1, ⟨by rw [u4, j4, t4]; simp; omega, by simp; omega, by omega⟩, ?_, hpre.trans ?_⟩
  · rw [u3, record_set_nonce, k4, k3 p hp.2, t3]
  · enter hP.transfer in transferCode
    rw [b_nonce_2_after]
    kexec [m_add_const]
    rw [if_pos (by omega), exec_mload_trie (by omega), hn']
    kexec [m_journal_add_nonce_change]
    rw [exec_journal_2 (by rw [t4]; omega) (by rw [t1.journal.len]; omega), ← hw3]
    kexec [m_increment, m_add_const]
    rw [wadd_small (by omega), exec_mstore_trie (by omega)]
    kexec []
    rw [Nat.add_zero, Nat.add_comm 1]
    exact .refl _

end Verif.Kasm
