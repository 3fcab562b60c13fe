import Verif.Kasm.Transfer
import Verif.Kasm.Code.RunConstructor
import Verif.Kasm.Code.Terminate
import Verif.Kasm.Code.SelfdestructList

/-! Creating the account of a contract (`asm/core/create_contract_account.asm`) and SELFDESTRUCT (`asm/core/terminate.asm`). -/

namespace Verif.Kasm

variable {P : Prog} {c : List I} {S s : List Nat} {w w' : World} {ret n i : Nat} {ps ts cs ds : List Nat} {f : Nat → Option Nat}
  {js : List (List Nat)} {a x key p : Nat}

/-! ### Lists of addresses -/

/-- A list of addresses in memory: its length is in the cell `len`, its elements from `base` on, in the order of insertion. -/
structure ListAt (w : World) (base len : Nat) (xs : List Nat) : Prop where
  len : w.mem len = xs.length
  fits : xs.length ≤ 2 ^ 32
  at_ : ∀ i (h : i < xs.length), w.mem (base + i) = xs[i]

/-- The contracts created in this transaction (`memory/segments.rs`, `CreatedContracts`; `constants/global_metadata.rs`, `CreatedContractsLen`). -/
abbrev CreatedAre (w : World) (cs : List Nat) : Prop := ListAt w 0x2500000000 0x50000002c cs

/-- The accounts to delete at the end of the transaction (`SelfDestructList`, `SelfDestructListLen`). -/
abbrev DeadAre (w : World) (ds : List Nat) : Prop := ListAt w 0x1600000000 0x50000001e ds

theorem ListAt.congr {base len : Nat} {xs : List Nat} (h : ListAt w base len xs) (h0 : w'.mem len = w.mem len)
    (hm : ∀ a, base ≤ a → a < base + 2 ^ 32 → w'.mem a = w.mem a) : ListAt w' base len xs := by
  have := h.fits
  refine ⟨by rw [h0]; exact h.len, h.fits, fun i hi => ?_⟩
  rw [hm _ (by omega) (by omega)]
  exact h.at_ i hi

/-- Memory after an address has been added. -/
def World.listed (w : World) (base len a : Nat) : World := (w.set (base + w.mem len) a).set len (w.mem len + 1)

theorem ListAt.push {base len : Nat} {xs : List Nat} (h : ListAt w base len xs) (hl : len < base ∨ base + 2 ^ 32 ≤ len) (hx : xs.length < 2 ^ 32) :
    ListAt (w.listed base len a) base len (xs ++ [a]) := by
  have h0 := h.len
  refine ⟨?_, by simp; omega, fun i hi => ?_⟩
  · rw [World.listed, set_same, h0]; simp
  · have hi1 : i < xs.length + 1 := by simpa using hi
    rw [World.listed, set_ne (by omega)]
    by_cases hi' : i = xs.length
    · subst hi'
      rw [h0, set_same]; simp
    · have hi2 : i < xs.length := by omega
      rw [set_ne (by omega), List.getElem_append_left hi2, h.at_ i hi2]

/-- The cells of the state: the accounts, their records, the journal and the touched addresses. -/
def StateCell (b : Nat) : Prop :=
  JourArea b ∨ TouchArea b ∨ (0xc00000000 ≤ b ∧ b < 0xd00000000) ∨ (accBase ≤ b ∧ b < accBase + 2 ^ 32) ∨ b = accNext ∨ b = 0x500000002

theorem StateIs.congr (h : StateIs w n ps f js ts) (hw : Words w') (hm : ∀ b, StateCell b → w'.mem b = w.mem b) : StateIs w' n ps f js ts :=
  ⟨hw, h.accounts.congr (hm _ (.inr (.inr (.inr (.inr (.inl rfl)))))) fun b h1 h2 => hm b (.inr (.inr (.inr (.inl ⟨h1, h2⟩)))), h.ptr, h.apart,
    by rw [hm _ (.inr (.inr (.inl ⟨by omega, by omega⟩)))]; exact h.null, h.journal.congr fun b hb => hm b (.inl hb),
    h.touched.congr fun b hb => hm b (.inr (.inl hb)), by rw [hm _ (.inr (.inr (.inr (.inr (.inr rfl)))))]; exact h.size⟩

theorem StateIs.accts_congr (h : StateIs w n ps f js ts) (hm : ∀ b, 0xc00000000 ≤ b → b < 0xd00000000 → w'.mem b = w.mem b) : w'.accts f = w.accts f := by
  funext k
  simp only [World.accts]
  cases hf : f k with
  | none => rfl
  | some q =>
    have := h.ptr _ _ hf
    simp only [Option.map_some, World.record]
    rw [hm _ (by omega) (by omega), hm _ (by omega) (by omega), hm _ (by omega) (by omega)]

/-- The cells of the list of created contracts. -/
def CreatedArea (b : Nat) : Prop := b = 0x50000002c ∨ (0x2500000000 ≤ b ∧ b < 0x2600000000)

/-- The cells of the list of accounts to delete. -/
def DeadArea (b : Nat) : Prop := b = 0x50000001e ∨ (0x1600000000 ≤ b ∧ b < 0x1700000000)

theorem CreatedAre.of_same (h : CreatedAre w cs) (hm : ∀ b, CreatedArea b → w'.mem b = w.mem b) : CreatedAre w' cs :=
  ListAt.congr h (hm _ (.inl rfl)) fun b h1 h2 => hm b (.inr ⟨h1, by omega⟩)

theorem DeadAre.of_same (h : DeadAre w ds) (hm : ∀ b, DeadArea b → w'.mem b = w.mem b) : DeadAre w' ds :=
  ListAt.congr h (hm _ (.inl rfl)) fun b h1 h2 => hm b (.inr ⟨h1, by omega⟩)

theorem stateCell_created {b : Nat} (h : CreatedArea b) : ¬ StateCell b ∧ ¬ PayCell b ∧ ¬ DeadArea b := by
  simp only [CreatedArea, DeadArea, StateCell, PayCell, BalCell, AccCell, TrieCell, JourArea, TouchArea, touchLen, touchBase, jourLen, jdatLen, jourBase, jdatBase, accBase, accNext] at *; omega

theorem stateCell_dead {b : Nat} (h : DeadArea b) : ¬ StateCell b ∧ ¬ PayCell b ∧ ¬ CreatedArea b := by
  simp only [CreatedArea, DeadArea, StateCell, PayCell, BalCell, AccCell, TrieCell, JourArea, TouchArea, touchLen, touchBase, jourLen, jdatLen, jourBase, jdatBase, accBase, accNext] at *; omega

theorem exec_append_created (h : w.mem 0x50000002c < 2 ^ 32) :
    exec P (m_append_created_contracts ++ c) (a :: s) w = exec P c s (w.listed 0x2500000000 0x50000002c a) := by
  kexec [m_append_created_contracts]
  rw [exec_load_global (by omega)]
  kexec [m_mstore_kernel1, m_build_kernel_address]
  rw [wadd_small (by omega), exec_mstore_at (by omega)]
  kexec [m_increment, m_add_const, m_mstore_global_metadata]
  rw [wadd_small (by omega), exec_mstore_at (by omega), Nat.add_comm 1]
  rfl

theorem exec_insert_dead (h : w.mem 0x50000001e < 2 ^ 32) :
    exec P (m_insert_selfdestruct_list ++ c) (a :: s) w = exec P c s (w.listed 0x1600000000 0x50000001e a) := by
  kexec [m_insert_selfdestruct_list]
  rw [exec_load_global (by omega)]
  kexec [m_build_kernel_address]
  rw [wadd_small (by omega), exec_mstore_at (by omega)]
  kexec [m_increment, m_add_const, m_mstore_global_metadata]
  rw [wadd_small (by omega), exec_mstore_at (by omega), Nat.add_comm 1]
  rfl

theorem listed_mem {base len b : Nat} (h1 : b ≠ len) (h2 : b ≠ base + w.mem len) : (w.listed base len a).mem b = w.mem b := by
  rw [World.listed, set_ne h1, set_ne h2]

theorem listed_created (hc : CreatedAre w cs) (hl : cs.length < 2 ^ 32) {b : Nat} (h : ¬ CreatedArea b) : (w.listed 0x2500000000 0x50000002c a).mem b = w.mem b := by
  have := hc.len
  exact listed_mem (fun e => h (.inl e)) fun e => h (.inr (by omega))

theorem listed_dead (hc : DeadAre w cs) (hl : cs.length < 2 ^ 32) {b : Nat} (h : ¬ DeadArea b) : (w.listed 0x1600000000 0x50000001e a).mem b = w.mem b := by
  have := hc.len
  exact listed_mem (fun e => h (.inl e)) fun e => h (.inr (by omega))

theorem listed_words {base len : Nat} (hw : Words w) (ha : a < 2 ^ 256) (hl : w.mem len < 2 ^ 32) : Words (w.listed base len a) :=
  (hw.set ha).set (by omega)

/-! ### Creating the account of a contract -/

/-- The state after an address has been added to the created contracts. -/
theorem listed_state (h : StateIs w n ps f js ts) (hc : CreatedAre w cs) (hl : cs.length < 2 ^ 32) (ha : a < 2 ^ 256) :
    StateIs (w.listed 0x2500000000 0x50000002c a) n ps f js ts ∧ (w.listed 0x2500000000 0x50000002c a).accts f = w.accts f :=
  ⟨h.congr (listed_words h.words ha (by have := hc.len; omega)) fun b hb => listed_created hc hl fun e => (stateCell_created e).1 hb,
    h.accts_congr fun b h1 h2 => listed_created hc hl fun e => (stateCell_created e).1 (.inr (.inr (.inl ⟨h1, h2⟩)))⟩

/-- The start of `create_contract_account`, after the address has been touched: it is added to the created contracts, then its account is looked up. -/
theorem run_create_start (hR : P.ReadsState) (hC : P.Has runConstructorCode) (h : StateIs w n ps f js ts) (hc : CreatedAre w cs) (hl : cs.length < 2 ^ 32)
    (ha' : a < 2 ^ 256) (ha : P.addrKey a < u256Max) (hi : AccHonest w 0 ps (P.addrKey a)) :
    ∃ w', Reaches P (.goto (P.addr "create@16.after") (a :: S) w) (.goto (P.addr "create@17.after") ((f (P.addrKey a)).getD 0 :: a :: S) w') ∧
      StateIs w' n ps f js ts ∧ w'.accts f = w.accts f ∧ CreatedAre w' (cs ++ [a]) ∧ Shift 1 (fun b => BalCell b ∨ CreatedArea b) w w' ∧
      (∀ b, StateCell b → w'.mem b = w.mem b) := by
  obtain ⟨l1, l2⟩ := listed_state (a := a) h hc hl ha'
  have l3 := ListAt.push (a := a) hc (by omega) hl
  have l4 : ∀ b, ¬ CreatedArea b → (w.listed 0x2500000000 0x50000002c a).mem b = w.mem b := fun b hb => listed_created hc hl hb
  have l5 := exec_append_created (P := P) (a := a) (s := a :: S) (w := w) (c := [DUP 1, STK 1 [.e 0, .t (.lab "create@17.after")], I.push (.lab "mpt_read_state_trie"), JUMP])
    (by rw [hc.len]; omega)
  have l6 : (w.listed 0x2500000000 0x50000002c a).inp = w.inp := rfl
  have l7 : (w.listed 0x2500000000 0x50000002c a).ctx = w.ctx := rfl
  generalize w.listed 0x2500000000 0x50000002c a = w1 at *
  have hcr : ∀ b, accBase ≤ b → b < accBase + 2 ^ 32 → w1.mem b = w.mem b := fun b h1 h2 => l4 b fun e => (stateCell_created e).1 (.inr (.inr (.inr (.inl ⟨h1, h2⟩))))
  have hi1 : AccHonest w1 0 ps (P.addrKey a) := hi.of_same hcr (by rw [l6]) h.accounts
  refine ⟨w1.looked a, ?_, looked_state l1, looked_accts.trans l2, CreatedAre.of_same l3 fun b hb => looked_mem ?_, ⟨looked_ctx.trans l7, fun j => ?_, fun b hb => ?_⟩, fun b hb => ?_⟩
  · enter hC in runConstructorCode
    rw [b_create_16_after]
    kexec []
    rw [l5]
    kexec []
    exact run_read_state hR l1.words l1.accounts ha hi1
  · simp only [CreatedArea] at hb; omega
  · rw [looked_inp, l6]
  · rw [looked_mem, l4 b fun e => hb (.inr e)]
    have : ¬ (0x700000000 ≤ b ∧ b < 0x700000020) := fun e => hb (.inl (.inl e))
    omega
  · rw [looked_mem, l4 b fun e => (stateCell_created e).1 hb]
    simp only [StateCell, JourArea, TouchArea, touchLen, touchBase, jourLen, jdatLen, jourBase, jdatBase, accBase, accNext] at hb; omega

/-- An account with a nonce or code is there: `create_contract_account` fails, but the address is among the created contracts. -/
theorem run_create_collision (hR : P.ReadsState) (hC : P.Has runConstructorCode) (h : StateIs w n ps f js ts) (hc : CreatedAre w cs) (hl : cs.length < 2 ^ 32)
    (ha' : a < 2 ^ 256) (ha : P.addrKey a < u256Max) (hi : AccHonest w 0 ps (P.addrKey a)) {A : Acct} (hA : w.accts f (P.addrKey a) = some A)
    (hcol : A.nonce ≠ 0 ∨ A.codeHash ≠ emptyHash) :
    ∃ w', Reaches P (.goto (P.addr "create@16.after") (a :: S) w) (.goto (P.addr "create_collision") S w') ∧
      StateIs w' n ps f js ts ∧ w'.accts f = w.accts f ∧ CreatedAre w' (cs ++ [a]) ∧ Shift 1 (fun b => BalCell b ∨ CreatedArea b) w w' := by
  obtain ⟨w', R, s, g, hcr, hs, -⟩ := run_create_start (S := S) hR hC h hc hl ha' ha hi
  refine ⟨w', R.trans ?_, s, g, hcr, hs⟩
  cases hf : f (P.addrKey a) with
  | none => simp [World.accts, hf] at hA
  | some p =>
  have hp := h.ptr _ _ hf
  have hA' : A = w'.record p := by rw [← g] at hA; simp only [World.accts, hf, Option.map_some, Option.some.injEq] at hA; exact hA.symm
  have e0 : w'.mem (0xc00000000 + p) = A.nonce := by rw [hA']; rfl
  have e3 : w'.mem (0xc00000000 + (3 + p)) = A.codeHash := by rw [hA', show 0xc00000000 + (3 + p) = 0xc00000000 + p + 3 by omega]; rfl
  have hend : ∀ q, Reaches P (.goto (P.addr "create@15.error_collision") (q :: a :: S) w') (.goto (P.addr "create_collision") S w') := fun q => by
    enter hC in runConstructorCode
    rw [b_create_15_error_collision, b_create_15_end]
    kexec []
    exact .refl _
  enter hC in runConstructorCode
  rw [b_create_17_after, Option.getD_some]
  kexec []
  rw [if_pos (by omega), exec_mload_trie (by omega), e0]
  kexec []
  by_cases hn : A.nonce = 0
  · rw [if_pos hn]
    kexec [m_add_const]
    rw [wadd_small (by omega), exec_mload_trie (by omega), e3]
    kexec [m_eq_const]
    rw [if_neg (by rcases hcol with h | h; exact absurd hn h; simpa using fun e => h e.symm)]
    exact hend _
  · rw [if_neg hn]
    exact hend _

/-- The world in which a new record is inserted: it has been written behind the trie data, and the key of its address has been computed. -/
def World.recorded (w : World) (v x a : Nat) : World := ((((w.append v).append x).append 0).append emptyHash).scratch 20 a

/-- A new record takes the place of the account, if there is one. -/
theorem run_new_record {v : Nat} (hL : P.Has linkedListCode) (hI : P.Has stateInsertCode) (t1 : StateIs w n ps f js ts) (hn : AccRoom w n)
    (ha : P.addrKey a < u256Max) (hv : v < 2 ^ 256) (hx : x < 2 ^ 256) (hi : AccHonest w 0 ps (P.addrKey a)) :
    ∃ w' n' ps' f', Reaches P (.goto (P.addr "mpt_insert_state_trie") (P.addrKey a :: w.mem 0x500000002 :: ret :: S) (w.recorded v x a)) (.goto ret S w') ∧
      StateIs w' n' ps' f' js ts ∧ w'.accts f' = updAcct (w.accts f) (P.addrKey a) ⟨v, x, emptyHash⟩ ∧ w'.ctx = w.ctx ∧
      (∀ d, ¬ PayCell d → w'.mem d = w.mem d) ∧ w'.mem jdatLen = w.mem jdatLen := by
  have hroom := hn.data
  have t1s := t1.size
  obtain ⟨T, hTT⟩ : ∃ T, T = w.mem 0x500000002 := ⟨_, rfl⟩
  have z3 := hTT.symm
  rw [z3] at t1s hroom
  rw [z3]
  obtain ⟨z4, k4, h4, v4⟩ := append_spec (v := v) t1.words hv (by omega)
  obtain ⟨w4, hw4⟩ : ∃ w4, w4 = w.append v := ⟨_, rfl⟩
  rw [z3, ← hw4] at z4 k4 v4
  rw [← hw4] at h4
  obtain ⟨z5, k5, h5, v5⟩ := append_spec (v := x) h4 hx (by omega)
  obtain ⟨w5, hw5⟩ : ∃ w5, w5 = w4.append x := ⟨_, rfl⟩
  rw [z4, ← hw5] at z5 k5 v5
  rw [← hw5] at h5
  obtain ⟨z6, k6, h6, -⟩ := append_spec (v := 0) h5 (by omega) (by omega)
  obtain ⟨w6, hw6⟩ : ∃ w6, w6 = w5.append 0 := ⟨_, rfl⟩
  rw [z5, ← hw6] at z6 k6
  rw [← hw6] at h6
  obtain ⟨z7, k7, h7, v7⟩ := append_spec (v := emptyHash) h6 (by decide) (by omega)
  obtain ⟨w7, hw7⟩ : ∃ w7, w7 = w6.append emptyHash := ⟨_, rfl⟩
  rw [z6, ← hw7] at z7 k7 v7
  rw [← hw7] at h7
  have k37 : Keeps w w7 (TrieFrom T) := ((k4.trans (k5.from (by omega))).trans (k6.from (by omega))).trans (k7.from (by omega))
  have hrec : w7.mem (0xc00000000 + T) = v ∧ w7.mem (0xc00000000 + T + 1) = x ∧ w7.mem (0xc00000000 + T + 3) = emptyHash := by
    refine ⟨?_, ?_, ?_⟩
    · rw [k7.2.2 _ (by simp only [TrieFrom]; omega), k6.2.2 _ (by simp only [TrieFrom]; omega), k5.2.2 _ (by simp only [TrieFrom]; omega), v4]
    · rw [k7.2.2 _ (by simp only [TrieFrom]; omega), k6.2.2 _ (by simp only [TrieFrom]; omega), show 0xc00000000 + T + 1 = 0xc00000000 + (T + 1) by omega, v5]
    · rw [show 0xc00000000 + T + 3 = 0xc00000000 + (T + 1 + 1 + 1) by omega, v7]
  have hw8 : w.recorded v x a = w7.scratch 20 a := by rw [World.recorded, ← hw4, ← hw5, ← hw6, ← hw7]
  rw [hw8]
  have m8 : ∀ d, d < 0x700000000 ∨ 0x700000000 + 20 ≤ d → (w7.scratch 20 a).mem d = w7.mem d := fun d hd => scratch_mem hd
  have h8 : Words (w7.scratch 20 a) := scratch_words h7
  have c8 : (w7.scratch 20 a).ctx = w7.ctx := scratch_ctx
  have p8 : (w7.scratch 20 a).inp = w7.inp := scratch_inp
  generalize w7.scratch 20 a = w8 at *
  have m28 : ∀ d, ¬ TrieFrom T d → ¬ (0x700000000 ≤ d ∧ d < 0x700000020) → w8.mem d = w.mem d := fun d h2 h3 => by
    rw [m8 d (by omega), k37.2.2 d h2]
  have hjour : ∀ d, accBase ≤ d ∧ d < accBase + 2 ^ 32 ∨ d = accNext → w8.mem d = w.mem d := fun d hd => by
    refine m28 d ?_ ?_ <;> simp only [TrieFrom, accBase, accNext] at * <;> omega
  have acc8 : AccountsAre w8 n ps f := t1.accounts.congr (hjour _ (.inr rfl)) fun d h1 h2 => hjour d (.inl ⟨h1, h2⟩)
  have in8 : w8.inp 0 = w.inp 0 := by
    rw [p8, k37.2.1]
  have hi8 : AccHonest w8 0 ps (P.addrKey a) := hi.of_same (fun d h1 h2 => hjour d (.inl ⟨h1, h2⟩)) in8 t1.accounts
  have z8 : w8.mem 0x500000002 = T + 4 := by rw [m8 _ (by omega)]; omega
  obtain ⟨w9, n', ps', R9, F9, W9, Z9, A9⟩ := run_insert_state (ret := ret) (S := S) (v := T) hL hI h8 acc8 ha hn.nodes (by omega) (by omega) hi8
  rw [z8] at F9 Z9
  have m29 : ∀ d, ¬ AccFrom T d → ¬ (0x700000000 ≤ d ∧ d < 0x700000020) → w9.mem d = w.mem d := fun d h2 h3 => by
    rw [F9.2.2 d fun e => h2 (e.imp_right (·.imp_right (·.mono (by omega)))), m28 d (fun e => h2 (.inr (.inr e))) h3]
  have rec9 : w9.record T = ⟨v, x, emptyHash⟩ := by
    have hm : ∀ j, j < 4 → w9.mem (0xc00000000 + T + j) = w7.mem (0xc00000000 + T + j) := fun j hj => by
      rw [F9.2.2 _ (by simp only [AccFrom, TrieFrom, accNext, accBase]; omega), m8 _ (by omega)]
    have hm0 := hm 0 (by omega)
    simp only [Nat.add_zero] at hm0
    simp only [World.record, hm0, hm 1 (by omega), hm 3 (by omega), hrec.1, hrec.2.1, hrec.2.2]
  have old9 : ∀ q, q + 4 ≤ T → w9.record q = w.record q := fun q hq => by
    have hm : ∀ j, j < 4 → w9.mem (0xc00000000 + q + j) = w.mem (0xc00000000 + q + j) := fun j hj => by
      refine m29 _ ?_ ?_ <;> (try simp only [AccFrom, TrieFrom, accNext, accBase]) <;> omega
    have hm0 := hm 0 (by omega)
    simp only [Nat.add_zero] at hm0
    simp only [World.record, hm0, hm 1 (by omega), hm 3 (by omega)]
  have hupd : ∀ k q, upd f (P.addrKey a) (some T) k = some q → k = P.addrKey a ∧ q = T ∨ k ≠ P.addrKey a ∧ f k = some q := fun k q hq => by
    simp only [upd] at hq
    by_cases hk : k = P.addrKey a
    · rw [if_pos hk] at hq; cases hq; exact .inl ⟨hk, rfl⟩
    · rw [if_neg hk] at hq; exact .inr ⟨hk, hq⟩
  have hjm : ∀ d, JourArea d → w9.mem d = w.mem d := fun d hd => by
    refine m29 d ?_ ?_ <;> simp only [AccFrom, TrieFrom, accNext, accBase, JourArea, jourLen, jdatLen, jourBase, jdatBase] at * <;> omega
  refine ⟨w9, n', ps', _, R9, ⟨W9, A9, fun k q hq => ?_, fun k k' q q' hq hq' hk => ?_, ?_, t1.journal.congr hjm, t1.touched.congr fun d hd => ?_, ?_, fun k q hq => ?_⟩, ?_, ?_, fun d hd => ?_, hjm _ (.inr (.inl rfl))⟩
  · rcases hupd k q hq with ⟨-, rfl⟩ | ⟨-, h'⟩
    · omega
    · exact t1.ptr _ _ h'
  · rcases hupd k q hq with ⟨e, rfl⟩ | ⟨-, h1⟩ <;> rcases hupd k' q' hq' with ⟨e', rfl⟩ | ⟨-, h2⟩
    · exact absurd (e.trans e'.symm) hk
    · exact .inr (t1s.2 _ _ h2)
    · exact .inl (t1s.2 _ _ h1)
    · exact t1.apart _ _ _ _ h1 h2 hk
  · rw [m29 _ (by simp only [AccFrom, TrieFrom, accNext, accBase]; omega) (by omega)]
    exact t1.null
  · refine m29 d ?_ ?_ <;> simp only [AccFrom, TrieFrom, accNext, accBase, TouchArea, touchLen, touchBase] at * <;> omega
  · omega
  · rcases hupd k q hq with ⟨-, rfl⟩ | ⟨-, h'⟩
    · omega
    · have := t1s.2 _ _ h'; omega
  · funext k
    simp only [updAcct, World.accts, upd]
    by_cases hk : k = P.addrKey a
    · simp only [if_pos hk, Option.map_some, rec9]
    · simp only [if_neg hk]
      cases hfk : f k with
      | none => rfl
      | some q =>
        simp only [Option.map_some]
        rw [old9 q (t1s.2 _ _ hfk)]
  · rw [F9.1, c8, k37.1]
  · rw [m29 d (fun e => hd (.inr e.cell)) (fun e => hd (.inl (.inl e)))]

/-- Adding an entry to the journal leaves the accounts as they are. -/
theorem push_state {l : List Nat} {k : Nat} (h : StateIs w n ps f js ts) (hr : StateRoom w js ts (k + 1)) (hl : l.length ≤ 4) (hv : ∀ v ∈ l, v < 2 ^ 256) :
    StateIs (pushEntry w l) n ps f (js ++ [l]) ts ∧ Shift 0 BalCell w (pushEntry w l) ∧ (pushEntry w l).accts f = w.accts f ∧
      StateRoom (pushEntry w l) (js ++ [l]) ts k ∧ Keeps w (pushEntry w l) JourArea := by
  have q1 := hr.data; have q2 := hr.journal; have q3 := hr.touched
  obtain ⟨j1, j2, j3, j4⟩ := h.journal.push (l := l) h.words (by omega) (by omega) hv
  have hs : Shift 0 BalCell w (pushEntry w l) := j2.frame.mono fun b hb => .inr (.inl hb)
  have hm : ∀ b, 0xc00000000 ≤ b → b < 0xd00000000 → (pushEntry w l).mem b = w.mem b := fun b h1 h2 => j2.2.2 b (by
      simp only [JourArea, jourLen, jdatLen, jourBase, jdatBase]; omega)
  exact ⟨⟨j3, hs.accounts h.accounts, h.ptr, h.apart, by rw [hm _ (by omega) (by omega)]; exact h.null, j1,
      h.touched.congr fun b hb => j2.2.2 b (by simp only [JourArea, TouchArea, touchLen, touchBase, jourLen, jdatLen, jourBase, jdatBase] at *; omega),
      by rw [hs.2.2 _ balCell_size]; exact h.size⟩, hs, h.accts_congr hm, ⟨by rw [j4]; omega, by simp; omega, by omega⟩, j2⟩

/-- The account is inserted: nonce 1, no code, the balance `x` there was, with an entry in the journal for the nonce. -/
theorem run_create_insert {k : Nat} (hR : P.ReadsState) (hI : P.Has stateInsertCode) (hC : P.Has runConstructorCode) (h : StateIs w n ps f js ts)
    (hr : StateRoom w js ts (k + 1)) (hn : AccRoom w n) (ha' : a < 2 ^ 256) (ha : P.addrKey a < u256Max) (hx : x < 2 ^ 256) (hi : AccHonest w 0 ps (P.addrKey a)) :
    ∃ w' n' ps' f', Reaches P (exec P b_create_15_do_insert (x :: a :: S) w) (.goto (P.addr "create@15.end") (0 :: S) w') ∧
      StateIs w' n' ps' f' (js ++ [[4, a, 0]]) ts ∧ w'.accts f' = updAcct (w.accts f) (P.addrKey a) ⟨1, x, emptyHash⟩ ∧ w'.ctx = w.ctx ∧
      (∀ d, ¬ PayCell d → w'.mem d = w.mem d) ∧ StateRoom w' (js ++ [[4, a, 0]]) ts k := by
  have q1 := hr.data; have q2 := hr.journal; have q3 := hr.touched
  have hroom := hn.data
  obtain ⟨s1, s2, s3, s4, -⟩ := push_state (l := [4, a, 0]) h hr (by simp) (by simp; omega)
  have hj := fun c s => exec_journal_2 (P := P) (c := c) (s := s) (t := 4) (v := a) (u := 0) (w := w) (by omega) (by rw [h.journal.len]; omega)
  have hsz : (pushEntry w [4, a, 0]).mem 0x500000002 = w.mem 0x500000002 := s2.2.2 _ balCell_size
  generalize pushEntry w [4, a, 0] = w1 at *
  obtain ⟨w', n', ps', f', R, t, g, c', m, d⟩ := run_new_record (v := 1) (x := x) (ret := P.addr "create@20.after") (S := S) hR.list hI s1 (hn.shift s2) ha (by omega) hx
    (s2.honest h.accounts hi)
  refine ⟨w', n', ps', f', ?_, t, by rw [g, s3], c'.trans s2.1, fun b hb => (m b hb).trans (s2.2.2 b fun e => hb (.inl e)), ⟨by rw [d]; exact s4.data, s4.journal, s4.touched⟩⟩
  rw [hsz] at R
  have z4 : (w1.append 1).mem 0x500000002 = w1.mem 0x500000002 + 1 := (append_spec (v := 1) s1.words (by omega) (by omega)).1
  have h4 : Words (w1.append 1) := (append_spec (v := 1) s1.words (by omega) (by omega)).2.2.1
  have z5 : ((w1.append 1).append x).mem 0x500000002 = w1.mem 0x500000002 + 2 := by rw [(append_spec (v := x) h4 hx (by omega)).1]; omega
  have h5 : Words ((w1.append 1).append x) := (append_spec (v := x) h4 (by omega) (by omega)).2.2.1
  have z6 : (((w1.append 1).append x).append 0).mem 0x500000002 = w1.mem 0x500000002 + 3 := by rw [(append_spec (v := 0) h5 (by omega) (by omega)).1]; omega
  have e4 := fun c s => exec_append_eq (P := P) (c := c) (s := s) (w := w1) (v := 1) (by omega)
  have e5 := fun c s => exec_append_eq (P := P) (c := c) (s := s) (w := w1.append 1) (v := x) (by omega)
  have e6 := fun c s => exec_append_eq (P := P) (c := c) (s := s) (w := (w1.append 1).append x) (v := 0) (by omega)
  have e7 := fun c s => exec_append_eq (P := P) (c := c) (s := s) (w := ((w1.append 1).append x).append 0) (v := emptyHash) (by omega)
  rw [World.recorded] at R
  have hst := run_store_word (ret := P.addr "create@19.after_mstore") (s := 20 :: 20 :: w.mem 0x500000002 :: S) (w := (((w1.append 1).append x).append 0).append emptyHash)
    (v := a) (n := 20) hR.copies (by omega) (by omega)
  rw [b_create_15_do_insert]
  kexec [m_get_trie_data_size]
  rw [exec_load_global (by omega)]
  kexec [m_journal_add_nonce_change]
  rw [hj]
  kexec []
  rw [e4]
  kexec []
  rw [e5]
  kexec []
  rw [e6]
  kexec []
  rw [e7]
  kexec []
  refine hst.trans ?_
  enter hC in runConstructorCode
  rw [b_create_19_after_mstore, exec_hash_word (by omega)]
  kexec []
  refine R.trans ?_
  enter hC in runConstructorCode
  rw [b_create_20_after]
  kexec []
  exact .refl _

/-- The entry of the journal for a contract whose account was not there. -/
def contractLog (g : Nat → Option Acct) (key a : Nat) : List (List Nat) := if g key = none then [[9, 1, a]] else []

/-- There is no account, or one without nonce and code: `create_contract_account` succeeds. -/
theorem run_create_fresh {k : Nat} (hR : P.ReadsState) (hI : P.Has stateInsertCode) (hC : P.Has runConstructorCode) (h : StateIs w n ps f js ts)
    (hr : StateRoom w js ts (k + 2)) (hn : AccRoom w n) (hc : CreatedAre w cs) (hl : cs.length < 2 ^ 32)
    (ha' : a < 2 ^ 256) (ha : P.addrKey a < u256Max) (hi : AccHonest w 0 ps (P.addrKey a)) (hi' : AccHonest w 1 ps (P.addrKey a))
    (hfree : ∀ A, w.accts f (P.addrKey a) = some A → A.nonce = 0 ∧ A.codeHash = emptyHash) :
    ∃ w' n' ps' f', Reaches P (.goto (P.addr "create@16.after") (a :: S) w) (.goto (P.addr "create@15.end") (0 :: S) w') ∧
      StateIs w' n' ps' f' (js ++ contractLog (w.accts f) (P.addrKey a) a ++ [[4, a, 0]]) ts ∧
      w'.accts f' = updAcct (w.accts f) (P.addrKey a) ⟨1, (w.acct f (P.addrKey a)).balance, emptyHash⟩ ∧
      CreatedAre w' (cs ++ [a]) ∧ w'.ctx = w.ctx ∧ (∀ d, ¬ PayCell d → ¬ CreatedArea d → w'.mem d = w.mem d) ∧
      StateRoom w' (js ++ contractLog (w.accts f) (P.addrKey a) a ++ [[4, a, 0]]) ts k := by
  obtain ⟨w1, R1, s1, g1, c1, hs1, hm1⟩ := run_create_start (S := S) hR hC h hc hl ha' ha hi
  have r1 : StateRoom w1 js ts (k + 2) := ⟨by rw [hm1 _ (.inl (.inr (.inl rfl)))]; exact hr.data, hr.journal, hr.touched⟩
  have n1 : AccRoom w1 n := ⟨hn.nodes, by rw [hm1 _ (by simp [StateCell])]; exact hn.data⟩
  have i1 : AccHonest w1 0 ps (P.addrKey a) := hi'.of_same (fun b h1 h2 => hm1 b (.inr (.inr (.inr (.inl ⟨h1, h2⟩))))) (hs1.2.1 0) h.accounts
  cases hf : f (P.addrKey a) with
  | none =>
    have hA : w.accts f (P.addrKey a) = none := by simp only [World.accts, hf, Option.map_none]
    rw [show contractLog (w.accts f) (P.addrKey a) a = [[9, 1, a]] by simp [contractLog, hA], show (w.acct f (P.addrKey a)).balance = 0 by simp [World.acct, hA]]
    rw [hf, Option.getD_none] at R1
    have q1 := r1.data; have q2 := r1.journal
    obtain ⟨s2, t2, g2, r2, -⟩ := push_state (l := [9, 1, a]) (k := k + 1) s1 r1 (by simp) (by simp; omega)
    have hj := fun c s => exec_journal_2 (P := P) (c := c) (s := s) (t := 9) (v := 1) (u := a) (w := w1) (by omega) (by rw [s1.journal.len]; omega)
    have hcr2 : CreatedAre (pushEntry w1 [9, 1, a]) (cs ++ [a]) := CreatedAre.of_same c1 fun b hb => t2.2.2 b fun e => (stateCell_created hb).2.1 (.inl e)
    generalize pushEntry w1 [9, 1, a] = w2 at *
    obtain ⟨w', n', ps', f', R, t, g, c', m, d⟩ := run_create_insert (x := 0) (S := S) hR hI hC s2 r2 (n1.shift t2) ha' ha (by omega) (t2.honest s1.accounts i1)
    refine ⟨w', n', ps', f', R1.trans ?_, t, by rw [g, g2, g1], CreatedAre.of_same hcr2 fun b hb => m b (stateCell_created hb).2.1, c'.trans (t2.1.trans hs1.1),
      fun b hb hb' => (m b hb).trans ((t2.2.2 b fun e => hb (.inl e)).trans (hs1.2.2 b fun e => e.elim (fun e => hb (.inl e)) hb')), d⟩
    enter hC in runConstructorCode
    rw [b_create_17_after]
    kexec []
    rw [if_neg (by simp)]
    enter hC in runConstructorCode
    rw [b_create_15_add_account]
    generalize b_create_15_do_insert = t at *
    kexec [m_journal_add_account_created]
    rw [hj]
    exact R
  | some p =>
    have hp := h.ptr _ _ hf
    have hA : w.accts f (P.addrKey a) = some (w1.record p) := by rw [← g1]; simp only [World.accts, hf, Option.map_some]
    obtain ⟨f0, f3⟩ := hfree _ hA
    rw [show contractLog (w.accts f) (P.addrKey a) a = [] by simp [contractLog, hA], List.append_nil,
      show (w.acct f (P.addrKey a)).balance = (w1.record p).balance by simp [World.acct, hA]]
    rw [hf, Option.getD_some] at R1
    obtain ⟨w', n', ps', f', R, t, g, c', m, d⟩ := run_create_insert (x := (w1.record p).balance) (S := S) (k := k) hR hI hC s1 (r1.mono (by omega)) n1 ha' ha (s1.words _) i1
    refine ⟨w', n', ps', f', R1.trans ?_, t, by rw [g, g1], CreatedAre.of_same c1 fun b hb => m b (stateCell_created hb).2.1, c'.trans hs1.1,
      fun b hb hb' => (m b hb).trans (hs1.2.2 b fun e => e.elim (fun e => hb (.inl e)) hb'), d⟩
    have e0 : w1.mem (0xc00000000 + p) = 0 := f0
    have e3 : w1.mem (0xc00000000 + (3 + p)) = emptyHash := by rw [← f3, show 0xc00000000 + (3 + p) = 0xc00000000 + p + 3 by omega]; rfl
    have e1 : w1.mem (0xc00000000 + (1 + p)) = (w1.record p).balance := by rw [show 0xc00000000 + (1 + p) = 0xc00000000 + p + 1 by omega]; rfl
    enter hC in runConstructorCode
    rw [b_create_17_after]
    kexec []
    rw [if_pos (by omega), exec_mload_trie (by omega), e0]
    kexec [m_add_const]
    rw [wadd_small (by omega), exec_mload_trie (by omega), e3]
    kexec [m_eq_const, m_sub_const]
    rw [wsub_small (by omega) (by omega), show 3 + p - 2 = 1 + p by omega, exec_mload_trie (by omega), e1]
    kexec []
    enter hC in runConstructorCode
    exact R

end Verif.Kasm
