import Verif.Kasm.Slots
import Verif.Kasm.Code.AccessLists

/-! The lists of accessed addresses and storage keys in the kernel's memory (EIP-2929), and the
journal entries made when an address or a key is accessed for the first time. -/

namespace Verif.Kasm

/-- The code of `asm/core/access_lists.asm` and the label it aborts at. -/
def accessCode : List (String × List I) := ("panic", b_panic) :: accessListsCode

/-- `@SEGMENT_ACCESSED_ADDRESSES`. -/
abbrev addrBase : Nat := 0x1400000000
/-- `@GLOBAL_METADATA_ACCESSED_ADDRESSES_LEN`: the end of the list. -/
abbrev addrEnd : Nat := 0x50000001c
/-- `@SEGMENT_ACCESSED_STORAGE_KEYS`. -/
abbrev keyBase : Nat := 0x1500000000
/-- `@GLOBAL_METADATA_ACCESSED_STORAGE_KEYS_LEN`: the end of the list. -/
abbrev keyEnd : Nat := 0x50000001d
/-- `@SEGMENT_JOURNAL` and `@GLOBAL_METADATA_JOURNAL_LEN`. -/
abbrev jourBase : Nat := 0x1b00000000
abbrev jourLen : Nat := 0x50000001f
/-- `@SEGMENT_JOURNAL_DATA` and `@GLOBAL_METADATA_JOURNAL_DATA_LEN`. -/
abbrev jdatBase : Nat := 0x1c00000000
abbrev jdatLen : Nat := 0x500000020

/-- The list of accessed addresses is in memory and holds exactly the addresses of `A`.  The
layout is that of `asm/core/access_lists.asm:9-10`: address, pointer to the next node. -/
def AddrsAre (w : World) (n : Nat) (ps : List Nat) (A : Nat → Prop) : Prop :=
  Linked addrBase 1 w.mem w.mem n ps ∧ w.mem addrEnd = addrBase + 2 * n ∧
    w.mem addrBase = u256Max ∧ (∀ p ∈ ps, w.mem p < u256Max) ∧ ∀ a, A a ↔ ∃ p ∈ ps, w.mem p = a

variable {P : Prog} {S : List Nat} {w : World} {ret n : Nat} {ps : List Nat} {A : Nat → Prop}

theorem reach_panic' (hP : P.Has accessCode) {s : List Nat} {w : World} :
    Reaches P (.goto (P.addr "panic") s w) .panic := by
  refine Reaches.enter hP (c := b_panic) (by simp [accessCode]) ?_
  kexec [b_panic]
  exact .refl _

theorem Prog.Has.accessLists (hP : P.Has accessCode) : P.Has accessListsCode :=
  fun x hx => hP x (List.mem_cons_of_mem _ hx)

/-! ### The journal -/

/-- One entry has been added to the journal: its data at the end of the data, a pointer to it at
the end of the journal.  `asm/journal/journal.asm:1-84`. -/
def Logged (w w' : World) (data : List Nat) : Prop :=
  w'.mem jourLen = w.mem jourLen + 1 ∧ w'.mem jdatLen = w.mem jdatLen + data.length ∧
    w'.mem (jourBase + w.mem jourLen) = w.mem jdatLen ∧
    ∀ i, i < data.length → w'.mem (jdatBase + w.mem jdatLen + i) = data.getD i 0

/-- The cells an entry of `k` words is written to. -/
def JourCell (w : World) (k : Nat) (a : Nat) : Prop :=
  a = jourLen ∨ a = jdatLen ∨ a = jourBase + w.mem jourLen ∨
    (jdatBase + w.mem jdatLen ≤ a ∧ a < jdatBase + w.mem jdatLen + k)

theorem exec_append_data {c : List I} {s : List Nat} {v : Nat} (ht : w.mem jdatLen < 2 ^ 32) :
    exec P (m_append_journal_data ++ c) (v :: s) w = exec P c s
      ((w.set (jdatBase + w.mem jdatLen) v).set jdatLen (w.mem jdatLen + 1)) := by
  simp only [jdatLen] at ht
  kexec [m_append_journal_data, m_journal_data_size, m_mload_global_metadata, m_increment,
      m_add_const, m_mstore_global_metadata, m_mstore_journal_data,
      m_mstore_kernel1, m_build_kernel_address]
  rw [exec_mload_at (by omega)]
  kexec []
  rw [wadd_small (by omega), exec_mstore_at (by omega)]
  kexec []
  rw [wadd_small (by omega), exec_mstore_at (by omega)]
  rw [Nat.add_comm 1]

theorem exec_append_journal {c : List I} {s : List Nat} {v : Nat} (ht : w.mem jourLen < 2 ^ 32) :
    exec P (m_append_journal ++ c) (v :: s) w = exec P c s
      ((w.set (jourBase + w.mem jourLen) v).set jourLen (w.mem jourLen + 1)) := by
  simp only [jourLen] at ht
  kexec [m_append_journal, m_journal_size, m_mload_global_metadata, m_increment,
      m_add_const, m_mstore_global_metadata, m_mstore_journal,
      m_mstore_kernel1, m_build_kernel_address]
  rw [exec_mload_at (by omega)]
  kexec []
  rw [wadd_small (by omega), exec_mstore_at (by omega)]
  kexec []
  rw [wadd_small (by omega), exec_mstore_at (by omega)]
  rw [Nat.add_comm 1]

/-- The memory after `data` has been appended to the journal's data. -/
def pushData (w : World) : List Nat → World
  | [] => w
  | v :: l => pushData ((w.set (jdatBase + w.mem jdatLen) v).set jdatLen (w.mem jdatLen + 1)) l

theorem pushData_spec (l : List Nat) : ∀ (w : World), Words w → w.mem jdatLen + l.length ≤ 2 ^ 32 →
    (∀ v ∈ l, v < 2 ^ 256) →
    (pushData w l).mem jdatLen = w.mem jdatLen + l.length ∧
      (∀ i, i < l.length → (pushData w l).mem (jdatBase + w.mem jdatLen + i) = l.getD i 0) ∧
      Keeps w (pushData w l) (fun a => a = jdatLen ∨
        (jdatBase + w.mem jdatLen ≤ a ∧ a < jdatBase + w.mem jdatLen + l.length)) ∧
      Words (pushData w l) := by
  induction l with
  | nil => intro w hw _ _; exact ⟨rfl, by simp, ⟨rfl, rfl, fun _ _ => rfl⟩, hw⟩
  | cons v l ih =>
    intro w hw hd hv
    rw [List.length_cons] at hd
    have h0 : ((w.set (jdatBase + w.mem jdatLen) v).set jdatLen (w.mem jdatLen + 1)).mem jdatLen =
      w.mem jdatLen + 1 := set_same
    obtain ⟨i1, i2, i3, i4⟩ := ih ((w.set (jdatBase + w.mem jdatLen) v).set jdatLen (w.mem jdatLen + 1))
      ((hw.set (hv v (by simp))).set (by omega)) (by rw [h0]; omega) (fun u hu => hv u (by simp [hu]))
    rw [h0] at i1 i2 i3
    refine ⟨?_, ?_, ⟨i3.1, i3.2.1, ?_⟩, i4⟩
    · rw [pushData, i1, List.length_cons]; omega
    · intro i hi
      rw [List.length_cons] at hi
      rcases i with _ | i
      · rw [pushData, i3.2.2 _ (by simp only [jdatBase, jdatLen] at *; omega),
          set_ne (by simp only [jdatBase, jdatLen] at *; omega), Nat.add_zero, set_same]
        rfl
      · rw [pushData, show jdatBase + w.mem jdatLen + (i + 1) = jdatBase + (w.mem jdatLen + 1) + i by omega,
          i2 i (by omega)]
        rfl
    · intro a ha
      rw [List.length_cons] at ha
      rw [pushData, i3.2.2 a (by simp only [jdatBase, jdatLen] at *; omega),
        set_ne (fun h => ha (.inl h)), set_ne (by simp only [jdatBase, jdatLen] at *; omega)]

/-- The memory after an entry has been added to the journal. -/
def pushEntry (w : World) (data : List Nat) : World :=
  ((pushData w data).set (jourBase + w.mem jourLen) (w.mem jdatLen)).set jourLen (w.mem jourLen + 1)

theorem pushEntry_spec {l : List Nat} (hw : Words w) (hd : w.mem jdatLen + l.length ≤ 2 ^ 32)
    (hj : w.mem jourLen < 2 ^ 32) (hv : ∀ v ∈ l, v < 2 ^ 256) :
    Logged w (pushEntry w l) l ∧ Keeps w (pushEntry w l) (JourCell w l.length) ∧
      Words (pushEntry w l) := by
  obtain ⟨i1, i2, i3, i4⟩ := pushData_spec l w hw hd hv
  refine ⟨⟨set_same, ?_, ?_, ?_⟩, ⟨i3.1, i3.2.1, ?_⟩, (i4.set (hw _)).set (by omega)⟩
  · rw [pushEntry, set_ne (by decide), set_ne (by simp only [jdatLen, jourBase]; omega), i1]
  · rw [pushEntry, set_ne (by simp only [jourLen, jourBase]; omega), set_same]
  · intro i hi
    rw [pushEntry, set_ne (by simp only [jourLen, jdatBase]; omega),
      set_ne (by simp only [jourBase, jdatBase]; omega), i2 i hi]
  · intro a ha
    simp only [JourCell, not_or] at ha
    rw [pushEntry, set_ne ha.1, set_ne ha.2.2.1, i3.2.2 a (fun h => h.elim ha.2.1 ha.2.2.2)]

theorem exec_journal_1 {c : List I} {s : List Nat} {t v : Nat}
    (hd : w.mem jdatLen + 2 ≤ 2 ^ 32) (hj : w.mem jourLen < 2 ^ 32) :
    exec P (m_journal_add_1 (.lit t) ++ c) (v :: s) w = exec P c s (pushEntry w [t, v]) := by
  have hlen : (pushData w [t, v]).mem jourLen = w.mem jourLen := by
    simp only [pushData, set_same]
    rw [set_ne (by decide), set_ne (by simp only [jourLen, jdatBase]; omega), set_ne (by decide),
      set_ne (by simp only [jourLen, jdatBase]; omega)]
  kexec [m_journal_add_1, m_journal_data_size, m_mload_global_metadata]
  rw [exec_mload_at (by omega)]
  kexec []
  rw [exec_append_data (by omega)]
  kexec []
  rw [exec_append_data (by rw [set_same]; omega)]
  rw [show ((((w.set (jdatBase + w.mem jdatLen) t).set jdatLen (w.mem jdatLen + 1)).set
                (jdatBase + ((w.set (jdatBase + w.mem jdatLen) t).set jdatLen (w.mem jdatLen + 1)).mem jdatLen) v).set
            jdatLen (((w.set (jdatBase + w.mem jdatLen) t).set jdatLen (w.mem jdatLen + 1)).mem jdatLen + 1)) =
    pushData w [t, v] from rfl, exec_append_journal (by rw [hlen]; exact hj), hlen]
  rfl

theorem exec_journal_2 {c : List I} {s : List Nat} {t v u : Nat}
    (hd : w.mem jdatLen + 3 ≤ 2 ^ 32) (hj : w.mem jourLen < 2 ^ 32) :
    exec P (m_journal_add_2 (.lit t) ++ c) (v :: u :: s) w = exec P c s (pushEntry w [t, v, u]) := by
  have hlen : (pushData w [t, v, u]).mem jourLen = w.mem jourLen := by
    simp only [pushData, set_same]
    rw [set_ne (by decide), set_ne (by simp only [jourLen, jdatBase]; omega), set_ne (by decide),
      set_ne (by simp only [jourLen, jdatBase]; omega), set_ne (by decide),
      set_ne (by simp only [jourLen, jdatBase]; omega)]
  kexec [m_journal_add_2, m_journal_data_size, m_mload_global_metadata]
  rw [exec_mload_at (by omega)]
  kexec []
  rw [exec_append_data (by omega)]
  kexec []
  rw [exec_append_data (by rw [set_same]; omega)]
  kexec []
  rw [exec_append_data (by rw [set_same, set_same]; omega)]
  rw [← hlen] at hj
  show exec P (m_append_journal ++ c) (w.mem jdatLen :: s) (pushData w [t, v, u]) = _
  rw [exec_append_journal hj, hlen]
  rfl

/-! ### Addresses -/

/-- `%get_valid_addr_ptr`: what passes is even and below the end of the list. -/
theorem valid_addr {c : List I} {s : List Nat} {h : Nat}
    (hn : w.mem addrEnd = addrBase + 2 * n) (hr : 2 * n ≤ 2 ^ 32) :
    exec P (m_get_valid_addr_ptr ++ c) (h :: s) w =
      if 2 * h < addrBase + 2 * n then exec P c (2 * h :: s) w
      else .goto (P.addr "panic") (h :: s) w := by
  have hd : wdiv (addrBase + 2 * n) 2 = (addrBase + 2 * n) / 2 := by simp [wdiv]
  kexec [m_get_valid_addr_ptr, m_mul_const, m_div_const, m_assert_gt0, m_assert_nonzero0, m_mload_global_metadata]
  rw [exec_mload_at (by omega)]
  kexec [hn, hd]
  refine ite_congr (propext ?_) (fun hh => ?_) (fun _ => rfl)
  · simp only [addrBase] at *; omega
  · rw [wmul_small (by simp only [addrBase] at *; omega)]

/-- The cells of the list of addresses and its bookkeeping. -/
def AddrCell (a : Nat) : Prop := a = addrEnd ∨ (addrBase ≤ a ∧ a < addrBase + 2 ^ 32)

/-- The hint names the last node of the list whose address is at most `a`, or the start if there
is none. -/
def AddrHint (w : World) (ps : List Nat) (a : Nat) : Prop :=
  2 * w.inp 0 ∈ addrBase :: ps ∧ (2 * w.inp 0 = addrBase ∨ w.mem (2 * w.inp 0) ≤ a) ∧
    a < w.mem (w.mem (2 * w.inp 0 + 1))

/-- The hint names the node before that of `a`. -/
def AddrPred (w : World) (ps : List Nat) (a : Nat) : Prop :=
  2 * w.inp 0 ∈ addrBase :: ps ∧ w.mem (w.mem (2 * w.inp 0 + 1)) = a

theorem Keeps.mono {w w' : World} {A B : Nat → Prop} (h : Keeps w w' A) (hs : ∀ a, A a → B a) :
    Keeps w w' B := ⟨h.1, h.2.1, fun a ha => h.2.2 a fun hA => ha (hs a hA)⟩

/-- Adding an entry to the journal after other cells have changed. -/
theorem push_after {w w1 : World} {l : List Nat} {C : Nat → Prop} (hw : Words w1)
    (hk : Keeps w w1 C) (hC : ∀ a, C a → a ≠ jourLen ∧ a ≠ jdatLen ∧ a < jourBase)
    (hd : w.mem jdatLen + l.length ≤ 2 ^ 32) (hj : w.mem jourLen < 2 ^ 32)
    (hv : ∀ v ∈ l, v < 2 ^ 256) :
    Words (pushEntry w1 l) ∧ Logged w (pushEntry w1 l) l ∧
      Keeps w (pushEntry w1 l) (fun b => C b ∨ JourCell w l.length b) ∧
      ∀ a, (a < jourBase ∧ a ≠ jourLen ∧ a ≠ jdatLen) ∨ jdatBase + 2 ^ 32 ≤ a →
        (pushEntry w1 l).mem a = w1.mem a := by
  have h1 : w1.mem jdatLen = w.mem jdatLen := hk.2.2 _ fun h => (hC _ h).2.1 rfl
  have h2 : w1.mem jourLen = w.mem jourLen := hk.2.2 _ fun h => (hC _ h).1 rfl
  obtain ⟨i1, i2, i3⟩ := pushEntry_spec hw (h1.symm ▸ hd) (h2.symm ▸ hj) hv
  have i2' : Keeps w1 (pushEntry w1 l) (JourCell w l.length) :=
    i2.mono fun a h => by simp only [JourCell, h1, h2] at h ⊢; exact h
  have i1' : Logged w (pushEntry w1 l) l := by simp only [Logged, h1, h2] at i1 ⊢; exact i1
  refine ⟨i3, i1', (hk.mono fun a h => .inl h).trans (i2'.mono fun a h => .inr h), fun a ha => i2'.2.2 a ?_⟩
  clear i1 i2 i1' i2' hC
  simp only [JourCell, jourBase, jourLen, jdatLen, jdatBase] at *
  omega

/-- `insert_accessed_addresses`, for every hint of the prover that is not below the list. -/
theorem run_insert_addr (hP : P.Has accessCode) (hw : Words w)
    (h : AddrsAre w n ps A) {a : Nat} (ha : a < u256Max) (hroom : 2 * (n + 1) ≤ 2 ^ 32)
    (hd : w.mem jdatLen + 2 ≤ 2 ^ 32) (hj : w.mem jourLen < 2 ^ 32)
    (hlow : addrBase ≤ 2 * w.inp 0) :
    Returns P (AddrHint w ps a) (.goto (P.addr "insert_accessed_addresses") (a :: ret :: S) w) ret
      fun s w' => (A a ∧ s = 0 :: S ∧ w' = w.next) ∨
        (¬ A a ∧ s = 1 :: S ∧ Words w' ∧ Logged w w' [0, a] ∧
          Keeps w.next w' (fun b => AddrCell b ∨ JourCell w 2 b) ∧
          ∃ ps', AddrsAre w' (n + 1) ps' (fun b => b = a ∨ A b)) := by
  obtain ⟨hl, hn, hb, hlt, hc⟩ := h
  have hr := hl.room
  have hwn : Words w.next := hw
  have hH : AddrHint w ps a → 2 * w.inp 0 ∈ addrBase :: ps ∧
    (2 * w.inp 0 = addrBase ∨ w.mem (2 * w.inp 0) ≤ a) ∧ a < w.mem (w.mem (2 * w.inp 0 + 1)) := id
  generalize AddrHint w ps a = H at hH ⊢
  renter hP.accessLists in accessListsCode
  kexec [b_insert_accessed_addresses, exec_input']
  rw [valid_addr (w := w.next) hn (by omega)]
  split
  rotate_left
  · exact .of (reach_panic' hP) (.panic fun h => by have := hl.ptr_bound (hH h).1; omega)
  rename_i hval
  have hcase := hl.cases (i := w.inp 0 - addrBase / 2) (by simp only [addrBase] at *; omega)
  rw [show addrBase + (1 + 1) * (w.inp 0 - addrBase / 2) = 2 * w.inp 0 by
    simp only [addrBase] at *; omega] at hcase
  have he : ∃ i, 2 * w.inp 0 = addrBase + (1 + 1) * i :=
    ⟨w.inp 0 - addrBase / 2, by simp only [addrBase] at *; omega⟩
  generalize hp : 2 * w.inp 0 = p at *
  kexec []
  rw [exec_mload_at (by simp only [addrBase] at *; omega)]
  kexec [m_eq_const, m_assert_eq0, m_increment, m_add_const, flag_or wgt_le weq_le, next_mem]
  split
  · -- the address is there
    rename_i h1
    split
    rotate_left
    · rename_i h2
      rw [wsub_eq_zero (by simp only [u256Max] at ha; omega) (hw _)] at h2
      refine .of (reach_panic' hP) (.panic fun h => ?_)
      have h3 := h1.2
      have := (hH h).2.1
      simp only [addrBase] at this; omega
    rename_i h2
    rw [wsub_eq_zero (by simp only [u256Max] at ha; omega) (hw _)] at h2
    rw [wadd_small (by simp only [addrBase] at *; omega), exec_mload_at (by simp only [addrBase] at *; omega)]
    kexec [m_jump_neq_const]
    split
    · rename_i h3
      rw [next_mem, wsub_eq_zero (by omega) (hw _), Nat.add_comm] at h3
      exact .panic fun h => hl.next_ne_max (hH h).1 h3.symm
    rename_i h3
    rw [next_mem, wsub_eq_zero (by omega) (hw _), Nat.add_comm] at h3
    have hmem : p ∈ ps := by
      rcases hcase with hm | hm
      · rcases List.mem_cons.1 hm with hm | hm
        · exact absurd hm.symm h1.2
        · exact hm
      · exact absurd hm.symm h3
    renter hP.accessLists in accessListsCode
    kexec [b_address_found]
    exact .ret (.inl ⟨(hc a).2 ⟨p, hmem, by omega⟩, rfl, rfl⟩)
  · -- a new address
    rename_i h1
    renter hP.accessLists in accessListsCode
    kexec [b_insert_new_address, m_increment, m_add_const, m_mload_global_metadata]
    rw [exec_mload_at (by omega)]
    kexec []
    rw [wadd_small (by simp only [addrBase] at *; omega), exec_mload_at (by simp only [addrBase] at *; omega),
      next_mem, hn, Nat.add_comm 1]
    kexec [m_eq_const, m_assert_zero0]
    split
    rotate_left
    · rename_i h2
      refine .of (reach_panic' hP) (.panic fun h => h2 ?_)
      exact fun hE => hl.next_ne_max (hH h).1 hE.symm
    rename_i h2
    have hmem : p ∈ addrBase :: ps := by
      rcases hcase with hm | hm
      · exact hm
      · exact absurd hm.symm h2
    have hnm := hl.next_mem hmem
    have hnb := hl.ptr_bound hnm
    have hpb := hl.ptr_bound hmem
    rw [exec_mload_at (by simp only [addrBase] at *; omega)]
    kexec [m_assert_lt0, m_assert_nonzero0]
    split
    rotate_left
    · exact .of (reach_panic' hP) (.panic fun h => by have := (hH h).2.2; rw [next_mem] at *; omega)
    rename_i h3
    rw [next_mem] at h3
    rw [exec_mstore_at (by simp only [addrBase] at *; omega)]
    kexec []
    rw [exec_mstore_at (by simp only [addrBase] at *; omega)]
    kexec []
    rw [wadd_small (by simp only [addrBase] at *; omega), exec_mstore_at (by simp only [addrBase] at *; omega)]
    kexec [m_mstore_global_metadata]
    rw [wadd_small (by simp only [addrBase]; omega), exec_mstore_at (by simp only [addrBase] at *; omega)]
    kexec [m_journal_add_account_loaded]
    rw [show 1 + (1 + (addrBase + 2 * n)) = addrBase + 2 * (n + 1) by omega,
      show 1 + (addrBase + 2 * n) = addrBase + 2 * n + 1 by omega]
    generalize hw4 : (((w.next.set (p + 1) (addrBase + 2 * n)).set (addrBase + 2 * n) a).set (addrBase + 2 * n + 1)
            (w.mem (p + 1))).set 21474836508 (addrBase + 2 * (n + 1)) = w4
    have hk4 : Keeps w.next w4 AddrCell := by
      rw [← hw4]
      refine (((Keeps.set ?_).trans (Keeps.set ?_)).trans (Keeps.set ?_)).trans (Keeps.set (.inl rfl)) <;>
      · refine .inr ?_; simp only [addrBase] at *; omega
    have hw4' : Words w4 := by
      rw [← hw4]
      exact (((hwn.set (by simp only [addrBase]; omega)).set (by simp only [u256Max] at ha; omega)).set
        (hw _)).set (by simp only [addrBase]; omega)
    have hj4 : w4.mem jourLen = w.mem jourLen := hk4.2.2 _ (by
      simp only [AddrCell, addrBase, addrEnd, jourLen]; omega)
    have hd4 : w4.mem jdatLen = w.mem jdatLen := hk4.2.2 _ (by
      simp only [AddrCell, addrBase, addrEnd, jdatLen]; omega)
    rw [exec_journal_1 (by rw [hd4]; exact hd) (by rw [hj4]; exact hj)]
    kexec []
    obtain ⟨k1, k2, k3, k4⟩ := push_after (w := w.next) (l := [0, a]) hw4' hk4 (by
      simp only [AddrCell, addrBase, addrEnd, jourLen, jdatLen, jourBase]; intro b hb; omega) hd hj (by
      simp only [u256Max] at ha
      intro v hv; simp only [List.mem_cons, List.not_mem_nil, or_false] at hv; omega)
    generalize hw6 : pushEntry w4 [0, a] = w6 at *
    have hfin : ∀ x, addrBase ≤ x → x < addrBase + 2 ^ 32 → w6.mem x =
        if x = addrBase + 2 * n + 1 then w.mem (p + 1) else if x = addrBase + 2 * n then a else
        if x = p + 1 then addrBase + 2 * n else w.mem x := by
      intro x hx hx'
      rw [k4 x (by simp only [addrBase, jourBase, jourLen, jdatLen] at *; omega), ← hw4,
        set_ne (by simp only [addrBase] at *; omega), set_mem, set_mem, set_mem]
      rfl
    have hold : ∀ q ∈ addrBase :: ps, w6.mem q = w.mem q := by
      intro q hq
      have hqb := hl.ptr_bound hq
      rw [hfin _ (by omega) (by omega), if_neg (by omega), if_neg (by omega), if_neg]
      intro hE
      have := hl.mem_inj (a := 0) hq hmem (by omega) (by omega) hE
      omega
    have hnew : w6.mem (addrBase + 2 * n) = a := by
      rw [hfin _ (by omega) (by omega), if_neg (by omega), if_pos rfl]
    obtain ⟨l, r, rfl, hlast, hlo, hhi⟩ := hl.around hmem (a := a)
      (by simp only [addrBase] at *; omega)
      (.inr h3)
    have hlink : Linked addrBase 1 w6.mem w6.mem (n + 1) (l ++ (addrBase + (1 + 1) * n) :: r) := by
      refine hl.insert hlast (by omega) ?_ ?_ ?_ ?_ ?_ ?_
      · rw [hfin _ (by omega) (by omega), if_neg (by omega), if_neg (by omega), if_pos rfl]
      · rw [hfin _ (by omega) (by omega), if_pos rfl]
      · intro j hj hjp
        rw [hfin _ (by omega) (by omega), if_neg (by omega), if_neg (by omega), if_neg (by omega)]
      · intro q hq; exact hold q (List.mem_cons_of_mem _ hq)
      · intro q hq; rw [hnew]; exact hlo q hq
      · intro q hq; rw [hnew]; exact hhi q hq
    refine .ret (.inr ⟨?_, rfl, k1, k2, k3, _, hlink, ?_, ?_, ?_, ?_⟩)
    · intro hA
      obtain ⟨q, hq, hqa⟩ := (hc a).1 hA
      rcases List.mem_append.1 hq with hq | hq
      · have := hlo q hq; omega
      · have := hhi q hq; omega
    · rw [k4 _ (by decide), ← hw4, set_same]
    · rw [hold addrBase (by simp)]; exact hb
    · intro q hq
      rcases List.mem_append.1 hq with hq | hq
      · rw [hold q (by simp [hq])]; exact hlt q (by simp [hq])
      · rcases List.mem_cons.1 hq with rfl | hq
        · rw [hnew]; exact ha
        · rw [hold q (by simp [hq])]; exact hlt q (by simp [hq])
    · intro b
      show b = a ∨ A b ↔ _
      rw [hc b]
      constructor
      · rintro (rfl | ⟨q, hq, rfl⟩)
        · exact ⟨_, by simp, hnew⟩
        · refine ⟨q, ?_, hold q (List.mem_cons_of_mem _ hq)⟩
          rcases List.mem_append.1 hq with hq | hq <;> simp [hq]
      · rintro ⟨q, hq, rfl⟩
        rcases List.mem_append.1 hq with hq | hq
        · exact .inr ⟨q, by simp [hq], (hold q (by simp [hq])).symm⟩
        · rcases List.mem_cons.1 hq with rfl | hq
          · exact .inl hnew
          · exact .inr ⟨q, by simp [hq], (hold q (by simp [hq])).symm⟩

/-- `remove_accessed_addresses`, for every hint of the prover that is not below the list. -/
theorem run_remove_addr (hP : P.Has accessCode) (hw : Words w)
    (h : AddrsAre w n ps A) {a : Nat} (ha : a < u256Max) (hlow : addrBase ≤ 2 * w.inp 0) :
    Returns P (AddrPred w ps a) (.goto (P.addr "remove_accessed_addresses") (a :: ret :: S) w) ret
      fun s w' => s = S ∧ Keeps w.next w' AddrCell ∧ Words w' ∧ A a ∧
        ∃ ps', AddrsAre w' n ps' (fun b => b ≠ a ∧ A b) := by
  obtain ⟨hl, hn, hb, hlt, hc⟩ := h
  have hr := hl.room
  have hwn : Words w.next := hw
  have hH : AddrPred w ps a → 2 * w.inp 0 ∈ addrBase :: ps ∧
    w.mem (w.mem (2 * w.inp 0 + 1)) = a := id
  generalize AddrPred w ps a = H at hH ⊢
  renter hP.accessLists in accessListsCode
  kexec [b_remove_accessed_addresses, exec_input']
  rw [valid_addr (w := w.next) hn (by omega)]
  split
  rotate_left
  · exact .of (reach_panic' hP) (.panic fun h => by have := hl.ptr_bound (hH h).1; omega)
  rename_i hval
  have hcase := hl.cases (i := w.inp 0 - addrBase / 2) (by simp only [addrBase] at *; omega)
  rw [show addrBase + (1 + 1) * (w.inp 0 - addrBase / 2) = 2 * w.inp 0 by
    simp only [addrBase] at *; omega] at hcase
  generalize hp : 2 * w.inp 0 = p at *
  kexec [m_increment, m_add_const]
  rw [wadd_small (by simp only [addrBase] at *; omega), exec_mload_at (by simp only [addrBase] at *; omega),
    Nat.add_comm 1, next_mem]
  kexec []
  rcases hcase with hmem | hdead
  rotate_left
  · rw [hdead, exec_mload_bad (by decide)]; exact .stuck fun h => hl.next_ne_max (hH h).1 hdead
  have hnm := hl.next_mem hmem
  have hnb := hl.ptr_bound hnm
  have hpb := hl.ptr_bound hmem
  rw [exec_mload_at (by simp only [addrBase] at *; omega)]
  kexec [m_assert_eq0]
  split
  rotate_left
  · rename_i h1
    rw [next_mem, wsub_eq_zero (by simp only [u256Max] at ha; omega) (hw _)] at h1
    exact .of (reach_panic' hP) (.panic fun h => h1 (hH h).2.symm)
  rename_i h1
  rw [next_mem, wsub_eq_zero (by simp only [u256Max] at ha; omega) (hw _)] at h1
  have hx : w.mem (p + 1) ∈ ps := by
    rcases List.mem_cons.1 hnm with hm | hm
    · rw [hm, hb] at h1; exact absurd h1 (by omega)
    · exact hm
  generalize hxe : w.mem (p + 1) = x at *
  obtain ⟨hpx, l, r, rfl, hlast⟩ := hl.split_next hmem hxe hx
  rw [wadd_small (by simp only [addrBase] at *; omega), exec_mload_at (by simp only [addrBase] at *; omega)]
  kexec [m_mstore_u256_max]
  rw [exec_mstore_at (by simp only [addrBase] at *; omega)]
  rw [exec_mstore_at (by simp only [addrBase] at *; omega), Nat.add_comm 1, next_mem]
  kexec []
  have hxm' := List.mem_cons_of_mem addrBase hx
  have hne : p + 1 ≠ x + 1 := by omega
  generalize hw2 : (w.next.set (x + 1) _).set (p + 1) (w.mem (x + 1)) = w2
  have hold : ∀ b, b ≠ p + 1 → b ≠ x + 1 → w2.mem b = w.mem b := by
    intro b hb1 hb2
    rw [← hw2, set_ne hb1, set_ne hb2]; rfl
  have hold' : ∀ q ∈ addrBase :: (l ++ x :: r), w2.mem q = w.mem q := by
    intro q hq
    refine hold _ (fun hE => ?_) fun hE => ?_
    · have := hl.mem_inj (a := 0) hq hmem (by omega) (by omega) hE; omega
    · have := hl.mem_inj (a := 0) hq hxm' (by omega) (by omega) hE; omega
  have hsub : ∀ q ∈ l ++ r, q ∈ l ++ x :: r := by
    intro q hq; rcases List.mem_append.1 hq with hq | hq <;> simp [hq]
  refine .ret ⟨rfl, ?_, ?_, (hc a).2 ⟨x, hx, h1.symm⟩, l ++ r, ?_, ?_, ?_, ?_, ?_⟩
  · rw [← hw2]
    refine (Keeps.set ?_).trans (Keeps.set ?_) <;>
    · refine .inr ?_; simp only [addrBase] at *; omega
  · rw [← hw2]; exact (hwn.set (by omega)).set (hw _)
  · refine hl.remove hlast ?_ ?_ ?_ ?_
    · rw [← hw2, set_same]
    · rw [← hw2, set_ne hne.symm, set_same]
    · intro j hj hjp hjx
      exact hold _ (by omega) (by omega)
    · intro q hq; exact hold' q (List.mem_cons_of_mem _ (hsub q hq))
  · rw [hold _ (by simp only [addrBase, addrEnd] at *; omega) (by simp only [addrBase, addrEnd] at *; omega)]; exact hn
  · rw [hold' addrBase (by simp)]; exact hb
  · intro q hq
    rw [hold' q (List.mem_cons_of_mem _ (hsub q hq))]; exact hlt q (hsub q hq)
  · intro b
    show b ≠ a ∧ A b ↔ _
    rw [hc b]
    constructor
    · rintro ⟨hba, q, hq, rfl⟩
      refine ⟨q, ?_, hold' q (List.mem_cons_of_mem _ hq)⟩
      simp only [List.mem_append, List.mem_cons] at hq ⊢
      rcases hq with hq | rfl | hq
      · exact .inl hq
      · exact absurd h1.symm hba
      · exact .inr hq
    · rintro ⟨q, hq, rfl⟩
      rw [hold' q (List.mem_cons_of_mem _ (hsub q hq))]
      refine ⟨fun hE => ?_, q, hsub q hq, rfl⟩
      have := hl.key_inj (hsub q hq) hx (hE.trans h1)
      subst this
      have hnd := (List.nodup_cons.1 hl.nodup).2
      rw [List.nodup_append] at hnd
      rcases List.mem_append.1 hq with hq | hq
      · exact hnd.2.2 q hq q (by simp) rfl
      · exact (List.nodup_cons.1 hnd.2.1).1 hq

end Verif.Kasm
