import Verif.Kasm.Rules
import Verif.Kasm.Chain
import Verif.Kasm.Code.LinkedList

/-! The list of accounts in the kernel's memory, and what the routines that read, write and
remove accounts do to it for every value the prover supplies. -/

namespace Verif.Kasm

/-- `@SEGMENT_ACCOUNTS_LINKED_LIST`. -/
abbrev accBase : Nat := 0x2200000000
/-- `@GLOBAL_METADATA_ACCOUNTS_LINKED_LIST_NEXT_AVAILABLE`. -/
abbrev accNext : Nat := 0x50000002f

/-- The list of accounts is in memory and holds exactly the accounts of `f`: for every key the
pointer to the account's fields.  The layout is that of `asm/mpt/linked_list/linked_list.asm:11-19`. -/
def AccountsAre (w : World) (n : Nat) (ps : List Nat) (f : Nat → Option Nat) : Prop :=
  Linked accBase 3 w.mem w.mem n ps ∧ w.mem accNext = accBase + 4 * n ∧
    w.mem accBase = u256Max ∧ (∀ p ∈ ps, w.mem p < u256Max) ∧
    Content w.mem (fun p => w.mem (p + 1)) ps f

/-- Every cell holds a word. -/
def Words (w : World) : Prop := ∀ a, w.mem a < 2 ^ 256

variable {P : Prog} {S : List Nat} {w : World} {ret n : Nat} {ps : List Nat}
  {f : Nat → Option Nat}

theorem reach_panic (hP : P.Has linkedListCode) {s : List Nat} {w : World} :
    Reaches P (.goto (P.addr "panic") s w) .panic := by
  enter hP in linkedListCode
  kexec [b_panic]
  exact .refl _

/-- `%get_valid_account_ptr`: only the beginning of a node passes. -/
theorem valid_account {c : List I} {s : List Nat} {h : Nat}
    (hn : w.mem accNext = accBase + 4 * n) (hr : 4 * n ≤ 2 ^ 32) :
    exec P (m_get_valid_account_ptr ++ c) (h :: s) w =
      if accBase ≤ 4 * h ∧ 4 * h < accBase + 4 * n then exec P c (4 * h :: s) w
      else .goto (P.addr "panic") (h :: s) w := by
  have e : exec P (m_get_valid_account_ptr ++ c) (h :: s) w =
      if accBase < wadd 1 (wmul 4 h) then
        if h < (accBase + 4 * n) / 4 then exec P c (wmul 4 h :: s) w
        else .goto (P.addr "panic") (h :: s) w
      else .goto (P.addr "panic") (h :: s) w := by
    kexec [m_get_valid_account_ptr, m_mul_const, m_increment, m_add_const, m_assert_gt0,
      m_assert_nonzero0, m_mload_global_metadata]
    rw [exec_mload_at (by omega)]
    kexec [hn, show wdiv (accBase + 4 * n) 4 = (accBase + 4 * n) / 4 by simp [wdiv]]
  rw [e]
  by_cases h1 : h < (accBase + 4 * n) / 4
  · have hm : wmul 4 h = 4 * h := wmul_small (by simp only [accBase] at h1; omega)
    rw [hm, wadd_small (by simp only [accBase] at h1; omega), if_pos h1]
    refine ite_congr (propext ?_) (fun _ => rfl) (fun _ => rfl)
    simp only [accBase] at *; omega
  · rw [if_neg h1, ite_self, if_neg]
    simp only [accBase] at *; omega

/-- A pointer that passed is the beginning of a node. -/
theorem accNode {h : Nat} (hv : accBase ≤ 4 * h ∧ 4 * h < accBase + 4 * n) :
    ∃ i, i < n ∧ 4 * h = accBase + (3 + 1) * i :=
  ⟨h - accBase / 4, by simp only [accBase] at *; omega, by simp only [accBase] at *; omega⟩

/-- `search_account`, for every hint of the prover: it aborts, or says that there is no such
account, or gives the right pointer. -/
theorem run_search_account (hP : P.Has linkedListCode) (hw : Words w)
    (h : AccountsAre w n ps f) {a : Nat} (ha : a < u256Max) :
    Returns P False (.goto (P.addr "search_account") (a :: ret :: S) w) ret fun s w' =>
      w' = w.next ∧ ((s = 0 :: S ∧ (4 * w.inp 0 = accBase ∨ w.mem (4 * w.inp 0) < a)) ∨
        ∃ v, f a = some v ∧ s = v :: S) := by
  obtain ⟨hl, hn, hb, hlt, hc⟩ := h
  have hroom := hl.room
  renter hP in linkedListCode
  kexec [b_search_account, exec_input']
  rw [valid_account (w := w.next) hn hroom]
  split
  rotate_left
  · exact .of (reach_panic hP) (.panic id)
  rename_i hv
  obtain ⟨i, hi, he⟩ := accNode hv
  kexec []
  rw [exec_mload_at (by simp only [accBase] at *; omega)]
  kexec [m_eq_const, m_assert_eq0, m_add_const, flag_or weq_le wgt_le, next_mem]
  split
  rotate_left
  · rename_i h1
    renter hP in linkedListCode
    kexec [b_account_not_found]
    refine .ret ⟨rfl, .inl ⟨rfl, ?_⟩⟩
    simp only [accBase] at *; omega
  rename_i h1
  split
  rotate_left
  · exact .of (reach_panic hP) (.panic id)
  rename_i h2
  rw [wsub_eq_zero (by simp only [u256Max] at ha; omega) (hw _)] at h2
  rw [wadd_small (by simp only [accBase] at *; omega), exec_mload_at (by simp only [accBase] at *; omega)]
  kexec [m_jump_neq_const]
  split
  · exact .panic id
  rename_i h3
  renter hP in linkedListCode
  kexec [b_account_found, m_increment, m_add_const]
  rw [wadd_small (by simp only [accBase] at *; omega), exec_mload_at (by simp only [accBase] at *; omega)]
  kexec []
  refine .ret ⟨rfl, .inr ⟨_, ?_, rfl⟩⟩
  rw [next_mem, wsub_eq_zero (by omega) (hw _)] at h3
  have hm := hl.cases hi
  rw [← he] at hm
  rcases hm with hm | hm
  · rcases List.mem_cons.1 hm with hm | hm
    · exact absurd hm.symm (by simp only [accBase] at *; omega)
    · have := hc.get hm
      rw [← h2] at this
      rw [this, Nat.add_comm]; rfl
  · exact absurd (by rw [Nat.add_comm, hm]) h3

/-! ### Writing -/

/-- The memory changes at most in the given cells. -/
def Keeps (w w' : World) (A : Nat → Prop) : Prop :=
  w'.ctx = w.ctx ∧ w'.inp = w.inp ∧ ∀ a, ¬ A a → w'.mem a = w.mem a

theorem Keeps.trans {w w' w'' : World} {A : Nat → Prop} (h : Keeps w w' A) (h' : Keeps w' w'' A) :
    Keeps w w'' A :=
  ⟨h'.1.trans h.1, h'.2.1.trans h.2.1, fun a ha => (h'.2.2 a ha).trans (h.2.2 a ha)⟩

theorem Keeps.set {w : World} {A : Nat → Prop} {a v : Nat} (h : A a) : Keeps w (w.set a v) A :=
  ⟨rfl, rfl, fun _ hb => set_ne (by rintro rfl; exact hb h)⟩

theorem Words.set {a v : Nat} (h : Words w) (hv : v < 2 ^ 256) : Words (w.set a v) := by
  intro b; rw [set_mem]; split
  · exact hv
  · exact h b

/-- The cells `%append_to_trie_data` writes: `@GLOBAL_METADATA_TRIE_DATA_SIZE` and the segment
`@SEGMENT_TRIE_DATA`. -/
def TrieCell (a : Nat) : Prop := a = 0x500000002 ∨ (0xc00000000 ≤ a ∧ a < 0xd00000000)

/-- The cells for trie data from the `t`-th on. -/
def TrieFrom (t a : Nat) : Prop := a = 0x500000002 ∨ (0xc00000000 + t ≤ a ∧ a < 0xd00000000)

theorem TrieFrom.mono {t t' a : Nat} (h : TrieFrom t' a) (ht : t ≤ t') : TrieFrom t a := h.imp_right fun h => by omega

theorem Keeps.from {w w' : World} {t t' : Nat} (h : Keeps w w' (TrieFrom t')) (ht : t ≤ t') : Keeps w w' (TrieFrom t) :=
  ⟨h.1, h.2.1, fun a ha => h.2.2 a fun hb => ha (hb.mono ht)⟩

theorem exec_append {c : List I} {s : List Nat} {v : Nat} (hw : Words w) (hv : v < 2 ^ 256)
    (ht : w.mem 0x500000002 < 2 ^ 32) :
    ∃ w', exec P (m_append_to_trie_data ++ c) (v :: s) w = exec P c s w' ∧
      w'.mem 0x500000002 = w.mem 0x500000002 + 1 ∧ Keeps w w' (TrieFrom (w.mem 0x500000002)) ∧ Words w' ∧
      w'.mem (0xc00000000 + w.mem 0x500000002) = v := by
  refine ⟨(w.set 0x500000002 (w.mem 0x500000002 + 1)).set
    (0xc00000000 + w.mem 0x500000002) v, ?_, ?_, ?_, ?_, set_same⟩
  · kexec [m_append_to_trie_data, m_get_trie_data_size, m_mload_global_metadata, m_increment,
      m_add_const, m_set_trie_data_size, m_mstore_global_metadata, m_mstore_trie_data,
      m_mstore_kernel1, m_build_kernel_address]
    rw [exec_mload_at (by omega)]
    kexec []
    rw [exec_mstore_at (by omega)]
    kexec []
    rw [wadd_small (by omega), exec_mstore_at (by omega), wadd_small (by omega), Nat.add_comm 1]
  · rw [set_ne (by omega), set_same]
  · refine Keeps.trans (Keeps.set (.inl rfl)) (Keeps.set (.inr ⟨?_, ?_⟩)) <;> omega
  · exact (hw.set (by omega)).set hv

/-- `%mload_trie_data`. -/
theorem exec_mload_trie {c : List I} {s : List Nat} {q : Nat} (hq : q < 2 ^ 32) :
    exec P (m_mload_trie_data ++ c) (q :: s) w = exec P c (w.mem (0xc00000000 + q) :: s) w := by
  kexec [m_mload_trie_data, m_mload_kernel, m_build_kernel_address]
  rw [wadd_small (by omega), exec_mload_at (by omega)]

/-- `%clone_account`: only new cells for trie data change. -/
theorem exec_clone {c : List I} {s : List Nat} {q : Nat} (hw : Words w) (hq : q + 4 < 2 ^ 32)
    (ht : w.mem 0x500000002 + 4 ≤ 2 ^ 32) :
    ∃ w', exec P (m_clone_account ++ c) (q :: s) w = exec P c (w.mem 0x500000002 :: s) w' ∧
      Keeps w w' (TrieFrom (w.mem 0x500000002)) ∧ Words w' ∧ w'.mem 0x500000002 = w.mem 0x500000002 + 4 := by
  have e : exec P (m_clone_account ++ c) (q :: s) w = exec P (m_append_to_trie_data ++
      (m_increment ++ (m_increment ++ DUP 1 ::
    (m_mload_trie_data ++ (m_append_to_trie_data ++ (m_increment ++ DUP 1 :: (m_mload_trie_data ++ (m_append_to_trie_data ++
    (m_increment ++ (m_mload_trie_data ++ (m_append_to_trie_data ++ c)))))))))))
      (w.mem (0xc00000000 + q) :: q :: w.mem 0x500000002 :: s) w := by
    rw [← exec_mload_trie (by omega)]
    kexec [m_clone_account, m_get_trie_data_size, m_mload_global_metadata]
    rw [exec_mload_at (by omega)]
    kexec []
  rw [e]
  obtain ⟨w1, e1, t1, k1, h1, -⟩ := exec_append (P := P) (w := w) (v := w.mem (0xc00000000 + q))
    (s := q :: w.mem 0x500000002 :: s) (c := (m_increment ++ (m_increment ++ DUP 1 ::
    (m_mload_trie_data ++ (m_append_to_trie_data ++ (m_increment ++ DUP 1 :: (m_mload_trie_data ++ (m_append_to_trie_data ++
    (m_increment ++ (m_mload_trie_data ++ (m_append_to_trie_data ++ c))))))))))) hw (hw _) (by omega)
  rw [e1]
  kexec [m_increment, m_add_const]
  rw [show wadd 1 (wadd 1 q) = q + 2 by rw [wadd_small (a := 1) (b := q) (by omega), wadd_small (by omega)]; omega]
  rw [exec_mload_trie (by omega)]
  obtain ⟨w2, e2, t2, k2, h2, -⟩ := exec_append (P := P) (w := w1) (v := w1.mem (0xc00000000 + (q + 2)))
    (s := (q + 2) :: w.mem 0x500000002 :: s) (c := (I.push (Tgt.lit 1) :: ADD :: DUP 1 :: (m_mload_trie_data ++ (m_append_to_trie_data ++
    (I.push (Tgt.lit 1) :: ADD :: (m_mload_trie_data ++ (m_append_to_trie_data ++ c))))))) h1 (h1 _) (by omega)
  rw [e2]
  kexec []
  rw [show wadd 1 (q + 2) = q + 3 by rw [wadd_small (by omega)]; omega]
  rw [exec_mload_trie (by omega)]
  obtain ⟨w3, e3, t3, k3, h3, -⟩ := exec_append (P := P) (w := w2) (v := w2.mem (0xc00000000 + (q + 3)))
    (s := (q + 3) :: w.mem 0x500000002 :: s) (c := (
    (I.push (Tgt.lit 1) :: ADD :: (m_mload_trie_data ++ (m_append_to_trie_data ++ c))))) h2 (h2 _) (by omega)
  rw [e3]
  kexec []
  rw [show wadd 1 (q + 3) = q + 4 by rw [wadd_small (by omega)]; omega]
  rw [exec_mload_trie (by omega)]
  obtain ⟨w4, e4, t4, k4, h4, -⟩ := exec_append (P := P) (w := w3) (v := w3.mem (0xc00000000 + (q + 4)))
    (s := w.mem 0x500000002 :: s) (c := c) h3 (h3 _) (by omega)
  rw [e4]
  exact ⟨w4, rfl, ((k1.trans (k2.from (by omega))).trans (k3.from (by omega))).trans (k4.from (by omega)), h4, by omega⟩

/-- The nodes of the list of accounts. -/
def AccNode (a : Nat) : Prop := accBase ≤ a ∧ a < accBase + 2 ^ 32

/-- The cells of the list of accounts and its bookkeeping. -/
def AccCell (a : Nat) : Prop :=
  a = accNext ∨ (accBase ≤ a ∧ a < accBase + 2 ^ 32) ∨ TrieCell a

/-- The same without the first `t` cells for trie data. -/
def AccFrom (t a : Nat) : Prop :=
  a = accNext ∨ (accBase ≤ a ∧ a < accBase + 2 ^ 32) ∨ TrieFrom t a

theorem AccNode.cell {a : Nat} (h : AccNode a) : AccCell a := .inr (.inl h)

theorem AccFrom.cell {t a : Nat} (h : AccFrom t a) : AccCell a :=
  h.imp_right (·.imp_right (·.imp_right fun h => by omega))

/-- The hint names the last node of the list whose key is at most `a`, or the start if there is
none. -/
def AccHint (w : World) (ps : List Nat) (a : Nat) : Prop :=
  4 * w.inp 0 ∈ accBase :: ps ∧ (4 * w.inp 0 = accBase ∨ w.mem (4 * w.inp 0) ≤ a) ∧
    a < w.mem (w.mem (4 * w.inp 0 + 3))

/-- The hint names the node before that of `a`. -/
def AccPred (w : World) (ps : List Nat) (a : Nat) : Prop :=
  4 * w.inp 0 ∈ accBase :: ps ∧ w.mem (w.mem (4 * w.inp 0 + 3)) = a

/-- `insert_account_with_overwrite`, for every hint of the prover. -/
theorem run_insert_account (hP : P.Has linkedListCode) (hw : Words w)
    (h : AccountsAre w n ps f) {a v : Nat} (ha : a < u256Max) (hroom : 4 * (n + 1) ≤ 2 ^ 32)
    (hv : v + 4 < 2 ^ 32) (ht : w.mem 0x500000002 + 4 ≤ 2 ^ 32) :
    Returns P (AccHint w ps a) (.goto (P.addr "insert_account_with_overwrite") (a :: v :: ret :: S) w) ret
      fun s w' => s = S ∧ Keeps w.next w' (AccFrom (w.mem 0x500000002)) ∧ Words w' ∧ (w.mem 0x500000002 ≤ w'.mem 0x500000002 ∧ w'.mem 0x500000002 ≤ w.mem 0x500000002 + 4) ∧
        ∃ n' ps', n' ≤ n + 1 ∧ AccountsAre w' n' ps' (upd f a (some v)) := by
  obtain ⟨hl, hn, hb, hlt, hc⟩ := h
  have hr := hl.room
  have hwn : Words w.next := hw
  have hH : AccHint w ps a → 4 * w.inp 0 ∈ accBase :: ps ∧
    (4 * w.inp 0 = accBase ∨ w.mem (4 * w.inp 0) ≤ a) ∧ a < w.mem (w.mem (4 * w.inp 0 + 3)) := id
  generalize AccHint w ps a = H at hH ⊢
  renter hP in linkedListCode
  kexec [b_insert_account_with_overwrite, exec_input']
  rw [valid_account (w := w.next) hn hr]
  split
  rotate_left
  · exact .of (reach_panic hP) (.panic fun h => by have := hl.ptr_bound (hH h).1; omega)
  rename_i hval
  obtain ⟨i, hi, he⟩ := accNode hval
  have hcase := hl.cases hi
  rw [← he] at hcase
  generalize hp : 4 * w.inp 0 = p at *
  kexec []
  rw [exec_mload_at (by simp only [accBase] at *; omega)]
  kexec [m_eq_const, m_assert_eq0, m_add_const, flag_or weq_le wgt_le, next_mem]
  split
  · -- the account is there
    rename_i h1
    split
    rotate_left
    · rename_i h2
      rw [wsub_eq_zero (by simp only [u256Max] at ha; omega) (hw _)] at h2
      refine .of (reach_panic hP) (.panic fun h => ?_)
      have h3 := h1.1
      have := (hH h).2.1
      simp only [accBase] at this; omega
    rename_i h2
    rw [wsub_eq_zero (by simp only [u256Max] at ha; omega) (hw _)] at h2
    rw [wadd_small (by simp only [accBase] at *; omega), exec_mload_at (by simp only [accBase] at *; omega)]
    kexec [m_jump_neq_const]
    split
    · rename_i h3
      rw [next_mem, wsub_eq_zero (by omega) (hw _), Nat.add_comm] at h3
      exact .panic fun h => hl.next_ne_max (hH h).1 h3.symm
    rename_i h3
    rw [next_mem, wsub_eq_zero (by omega) (hw _), Nat.add_comm] at h3
    have hmem : p ∈ ps := by
      rcases hcase with hm | hm
      · rcases List.mem_cons.1 hm with hm | hm
        · exact absurd hm.symm h1.1
        · exact hm
      · exact absurd hm.symm h3
    renter hP in linkedListCode
    kexec [b_account_found_with_overwrite, m_increment, m_add_const]
    rw [wadd_small (by simp only [accBase] at *; omega), exec_mstore_at (by simp only [accBase] at *; omega),
      Nat.add_comm 1]
    kexec [m_pop2, rep]
    have hfr : ∀ b, b ≠ p + 1 → (w.next.set (p + 1) v).mem b = w.mem b := fun b hb => set_ne hb
    have hq : ∀ q ∈ accBase :: ps, ∀ k, k ≤ 3 → k ≠ 1 → q + k ≠ p + 1 := by
      intro q hq k hk hk1 hE
      have := hl.mem_inj hq (List.mem_cons_of_mem _ hmem) hk (by omega) hE
      exact hk1 this.2
    refine .ret ⟨rfl, Keeps.set ?_, hwn.set (by omega), ?_, n, ps, by omega, ?_, ?_, ?_, ?_, ?_⟩
    · refine .inr (.inl ?_); simp only [accBase] at *; omega
    · have : (w.next.set (p + 1) v).mem 0x500000002 = w.mem 0x500000002 := hfr _ (by simp only [accBase] at *; omega)
      omega
    · refine hl.congr (fun j hj => hfr _ ?_) fun q hm => hfr _ ?_
      · intro hE
        rw [he] at hE
        have := Linked.node_inj (by omega) (by omega) hE
        omega
      · exact hq q (List.mem_cons_of_mem _ hm) 0 (by omega) (by omega)
    · rw [hfr _ (by simp only [accBase, accNext] at *; omega), hn]
    · rw [hfr _ (by clear h2; simp only [accBase] at *; omega), hb]
    · intro q hm
      rw [hfr q (hq q (List.mem_cons_of_mem _ hm) 0 (by omega) (by omega))]; exact hlt q hm
    · have := Content.update (key' := (w.next.set (p + 1) v).mem)
        (val' := fun q => (w.next.set (p + 1) v).mem (q + 1)) hc hmem
        (fun q hm hk => hl.key_inj hm hmem hk)
        (fun q hm => hfr _ (hq q (List.mem_cons_of_mem _ hm) 0 (by omega) (by omega)))
        (fun q hm hne => hfr _ (by omega))
      rw [← h2, set_same] at this
      exact this
  · -- a new account
    rename_i h1
    renter hP in linkedListCode
    kexec [b_insert_new_account, m_add_const, m_mload_global_metadata]
    rw [exec_mload_at (by omega)]
    kexec []
    rw [wadd_small (by simp only [accBase] at *; omega), exec_mload_at (by simp only [accBase] at *; omega),
      next_mem, hn, Nat.add_comm 3]
    kexec [m_eq_const, m_assert_zero0]
    split
    rotate_left
    · rename_i h2
      refine .of (reach_panic hP) (.panic fun h => h2 ?_)
      exact fun hE => hl.next_ne_max (hH h).1 hE.symm
    rename_i h2
    have hmem : p ∈ accBase :: ps := by
      rcases hcase with hm | hm
      · exact hm
      · exact absurd hm.symm h2
    have hnm := hl.next_mem hmem
    have hnb := hl.ptr_bound hnm
    have hpb := hl.ptr_bound hmem
    rw [exec_mload_at (by simp only [accBase] at *; omega)]
    kexec [m_assert_lt0, m_assert_nonzero0]
    split
    rotate_left
    · exact .of (reach_panic hP) (.panic fun h => by have := (hH h).2.2; rw [next_mem] at *; omega)
    rename_i h3
    rw [next_mem] at h3
    kexec [m_increment, m_add_const]
    rw [exec_mstore_at (by simp only [accBase] at *; omega)]
    kexec []
    rw [exec_mstore_at (by simp only [accBase] at *; omega)]
    kexec []
    rw [wadd_small (by simp only [accBase] at *; omega), exec_mstore_at (by simp only [accBase] at *; omega)]
    kexec []
    obtain ⟨w3, e3, k3, hw3, t3⟩ := exec_clone (P := P) (q := v)
      (w := (((w.next.set (p + 3) (accBase + 4 * n)).set (accBase + 4 * n) a).set
        (1 + (accBase + 4 * n)) v))
      (s := wadd 1 (1 + (accBase + 4 * n)) :: wadd 1 (1 + (accBase + 4 * n)) :: w.mem (p + 3) :: a :: v :: ret :: S)
      (c := MSTORE_GENERAL :: I.push (Tgt.lit 1) :: ADD :: DUP 1 :: SWAP 2 :: MSTORE_GENERAL ::
        I.push (Tgt.lit 1) :: ADD :: (m_mstore_global_metadata (Tgt.lit 21474836527) ++ (m_pop2 ++ [JUMP])))
      (((hwn.set (by simp only [accBase]; omega)).set (by simp only [u256Max] at ha; omega)).set (by omega)) hv
      (by rw [set_ne (by simp only [accBase]; omega), set_ne (by simp only [accBase]; omega),
            set_ne (by simp only [accBase] at *; omega)]; exact ht)
    rw [e3]
    kexec [m_mstore_global_metadata]
    rw [wadd_small (a := 1) (b := 1 + (accBase + 4 * n)) (by simp only [accBase]; omega),
      exec_mstore_at (by simp only [accBase] at *; omega)]
    kexec []
    rw [wadd_small (by simp only [accBase]; omega), exec_mstore_at (by simp only [accBase] at *; omega)]
    kexec []
    rw [wadd_small (by simp only [accBase]; omega), exec_mstore_at (by simp only [accBase] at *; omega)]
    kexec [m_pop2, rep]
    rw [show 1 + (1 + (1 + (1 + (accBase + 4 * n)))) = accBase + 4 * (n + 1) by omega,
      show 1 + (1 + (1 + (accBase + 4 * n))) = accBase + 4 * n + 3 by omega,
      show 1 + (1 + (accBase + 4 * n)) = accBase + 4 * n + 2 by omega,
      show 1 + (accBase + 4 * n) = accBase + 4 * n + 1 by omega]
    rw [show 1 + (accBase + 4 * n) = accBase + 4 * n + 1 by omega] at k3 t3
    generalize hw2 : ((w.next.set (p + 3) (accBase + 4 * n)).set (accBase + 4 * n) a).set
      (accBase + 4 * n + 1) v = w2 at k3 t3
    have hsz : w2.mem 0x500000002 = w.mem 0x500000002 := by
      rw [← hw2, set_ne (by simp only [accBase]; omega), set_ne (by simp only [accBase]; omega), set_ne (by simp only [accBase] at *; omega)]; rfl
    rw [hsz] at k3 t3
    have hk2 : Keeps w.next w2 (AccFrom (w.mem 0x500000002)) := by
      rw [← hw2]
      refine ((Keeps.set ?_).trans (Keeps.set ?_)).trans (Keeps.set ?_) <;>
      · refine .inr (.inl ?_); simp only [accBase] at *; omega
    have hw2' : Words w2 := by
      rw [← hw2]
      exact ((hwn.set (by simp only [accBase]; omega)).set (by simp only [u256Max] at ha; omega)).set (by omega)
    have hk3 : Keeps w2 w3 (AccFrom (w.mem 0x500000002)) := ⟨k3.1, k3.2.1, fun b hb => k3.2.2 b fun hb' => hb (.inr (.inr hb'))⟩
    generalize ht' : w2.mem 21474836482 = t
    generalize hw6 : ((w3.set (accBase + 4 * n + 2) t).set (accBase + 4 * n + 3) (w.mem (p + 3))).set
      accNext (accBase + 4 * (n + 1)) = w6
    have hfin : ∀ x, accBase ≤ x → x < accBase + 2 ^ 32 → w6.mem x =
        if x = accBase + 4 * n + 3 then w.mem (p + 3) else if x = accBase + 4 * n + 2 then t else
        if x = accBase + 4 * n + 1 then v else if x = accBase + 4 * n then a else
        if x = p + 3 then accBase + 4 * n else w.mem x := by
      intro x hx hx'
      have : w3.mem x = w2.mem x := k3.2.2 x (by
        rintro (hT | hT) <;> simp only [accBase] at * <;> omega)
      rw [← hw6, set_ne (by simp only [accBase, accNext] at *; omega), set_mem, set_mem, this, ← hw2, set_mem,
        set_mem, set_mem]
      rfl
    have hold : ∀ q ∈ accBase :: ps, ∀ k, k ≤ 2 → w6.mem (q + k) = w.mem (q + k) := by
      intro q hq k hk
      have hqb := hl.ptr_bound hq
      rw [hfin _ (by omega) (by omega), if_neg (by omega), if_neg (by omega), if_neg (by omega), if_neg (by omega),
        if_neg]
      intro hE
      have := hl.mem_inj hq hmem (by omega) (by omega) hE
      omega
    have hnew : w6.mem (accBase + 4 * n) = a := by
      rw [hfin _ (by omega) (by omega), if_neg (by omega), if_neg (by omega), if_neg (by omega), if_pos rfl]
    have hnewv : w6.mem (accBase + 4 * n + 1) = v := by
      rw [hfin _ (by omega) (by omega), if_neg (by omega), if_neg (by omega), if_pos rfl]
    obtain ⟨l, r, rfl, hlast, hlo, hhi⟩ := hl.around hmem (a := a)
      (by simp only [accBase] at *; omega)
      (.inr h3)
    have hlink : Linked accBase 3 w6.mem w6.mem (n + 1) (l ++ (accBase + (3 + 1) * n) :: r) := by
      refine hl.insert hlast (by omega) ?_ ?_ ?_ ?_ ?_ ?_
      · rw [hfin _ (by omega) (by omega), if_neg (by omega), if_neg (by omega), if_neg (by omega),
          if_neg (by omega), if_pos rfl]
      · rw [hfin _ (by omega) (by omega), if_pos rfl]
      · intro j hj hjp
        rw [hfin _ (by omega) (by omega), if_neg (by omega), if_neg (by omega), if_neg (by omega),
          if_neg (by omega), if_neg (by omega)]
      · intro q hq; exact hold q (List.mem_cons_of_mem _ hq) 0 (by omega)
      · intro q hq; rw [hnew]; exact hlo q hq
      · intro q hq; rw [hnew]; exact hhi q hq
    refine .ret ⟨rfl, (hk2.trans hk3).trans ?_, ?_, ?_, n + 1, _, by omega, hlink, ?_, ?_, ?_, ?_⟩
    · rw [← hw6]
      refine ((Keeps.set ?_).trans (Keeps.set ?_)).trans (Keeps.set (.inl rfl)) <;>
      · refine .inr (.inl ?_); simp only [accBase] at *; omega
    · rw [← hw6]
      exact ((hw3.set (ht' ▸ hw2' _)).set (hw _)).set (by simp only [accBase]; omega)
    · rw [← hw6, set_ne (by simp only [accNext]; omega), set_ne (by simp only [accBase]; omega), set_ne (by simp only [accBase]; omega)]; omega
    · rw [← hw6, set_same]
    · rw [show accBase = accBase + 0 from rfl, hold accBase (by simp) 0 (by omega)]; exact hb
    · intro q hq
      rcases List.mem_append.1 hq with hq | hq
      · rw [show q = q + 0 from rfl, hold q (by simp [hq]) 0 (by omega)]; exact hlt q (by simp [hq])
      · rcases List.mem_cons.1 hq with rfl | hq
        · rw [hnew]; exact ha
        · rw [show q = q + 0 from rfl, hold q (by simp [hq]) 0 (by omega)]; exact hlt q (by simp [hq])
    · have := Content.insert (key' := w6.mem) (val' := fun q => w6.mem (q + 1))
        (x := accBase + 4 * n) hc ?_ ?_ ?_
      · rw [hnew, hnewv] at this; exact this
      · intro q hq
        rw [hnew]
        rcases List.mem_append.1 hq with hq | hq
        · have := hlo q hq; omega
        · have := hhi q hq; omega
      · intro q hq; exact hold q (List.mem_cons_of_mem _ hq) 0 (by omega)
      · intro q hq; exact hold q (List.mem_cons_of_mem _ hq) 1 (by omega)

/-- `remove_account`, for every hint of the prover. -/
theorem run_remove_account (hP : P.Has linkedListCode) (hw : Words w)
    (h : AccountsAre w n ps f) {a : Nat} (ha : a < u256Max) :
    Returns P (AccPred w ps a) (.goto (P.addr "remove_account") (a :: ret :: S) w) ret
      fun s w' => s = S ∧ Keeps w.next w' AccNode ∧ Words w' ∧
        (∃ v, f a = some v) ∧ ∃ ps', AccountsAre w' n ps' (upd f a none) := by
  obtain ⟨hl, hn, hb, hlt, hc⟩ := h
  have hr := hl.room
  have hwn : Words w.next := hw
  have hH : AccPred w ps a → 4 * w.inp 0 ∈ accBase :: ps ∧
    w.mem (w.mem (4 * w.inp 0 + 3)) = a := id
  generalize AccPred w ps a = H at hH ⊢
  renter hP in linkedListCode
  kexec [b_remove_account, exec_input']
  rw [valid_account (w := w.next) hn hr]
  split
  rotate_left
  · exact .of (reach_panic hP) (.panic fun h => by have := hl.ptr_bound (hH h).1; omega)
  rename_i hval
  obtain ⟨i, hi, he⟩ := accNode hval
  have hcase := hl.cases hi
  rw [← he] at hcase
  generalize hp : 4 * w.inp 0 = p at *
  kexec [m_add_const]
  rw [wadd_small (by simp only [accBase] at *; omega), exec_mload_at (by simp only [accBase] at *; omega),
    Nat.add_comm 3, next_mem]
  kexec []
  rcases hcase with hmem | hdead
  rotate_left
  · rw [hdead, exec_mload_bad (by decide)]; exact .stuck fun h => hl.next_ne_max (hH h).1 hdead
  have hnm := hl.next_mem hmem
  have hnb := hl.ptr_bound hnm
  have hpb := hl.ptr_bound hmem
  rw [exec_mload_at (by simp only [accBase] at *; omega)]
  kexec [m_assert_eq0]
  split
  rotate_left
  · rename_i h1
    rw [next_mem, wsub_eq_zero (by simp only [u256Max] at ha; omega) (hw _)] at h1
    exact .of (reach_panic hP) (.panic fun h => h1 (hH h).2.symm)
  rename_i h1
  rw [next_mem, wsub_eq_zero (by simp only [u256Max] at ha; omega) (hw _)] at h1
  have hx : w.mem (p + 3) ∈ ps := by
    rcases List.mem_cons.1 hnm with hm | hm
    · rw [hm, hb] at h1; exact absurd h1 (by omega)
    · exact hm
  generalize hxe : w.mem (p + 3) = x at *
  obtain ⟨hpx, l, r, rfl, hlast⟩ := hl.split_next hmem hxe hx
  rw [wadd_small (by simp only [accBase] at *; omega), exec_mload_at (by simp only [accBase] at *; omega)]
  kexec [m_mstore_u256_max]
  rw [exec_mstore_at (by simp only [accBase] at *; omega)]
  rw [exec_mstore_at (by simp only [accBase] at *; omega), Nat.add_comm 3, next_mem]
  kexec []
  have hxm' := List.mem_cons_of_mem accBase hx
  have hne : p + 3 ≠ x + 3 := by omega
  generalize hw2 : (w.next.set (x + 3) _).set (p + 3) (w.mem (x + 3)) = w2
  have hold : ∀ b, b ≠ p + 3 → b ≠ x + 3 → w2.mem b = w.mem b := by
    intro b hb1 hb2
    rw [← hw2, set_ne hb1, set_ne hb2]; rfl
  have hold' : ∀ q ∈ accBase :: (l ++ x :: r), ∀ k, k ≤ 2 → w2.mem (q + k) = w.mem (q + k) := by
    intro q hq k hk
    refine hold _ (fun hE => ?_) fun hE => ?_
    · have := hl.mem_inj hq hmem (by omega) (by omega) hE; omega
    · have := hl.mem_inj hq hxm' (by omega) (by omega) hE; omega
  have hsub : ∀ q ∈ l ++ r, q ∈ l ++ x :: r := by
    intro q hq; rcases List.mem_append.1 hq with hq | hq <;> simp [hq]
  refine .ret ⟨rfl, ?_, ?_, ⟨_, h1 ▸ hc.get hx⟩, l ++ r, ?_, ?_, ?_, ?_, ?_⟩
  · rw [← hw2]
    refine (Keeps.set ?_).trans (Keeps.set ?_) <;>
    · simp only [AccNode, accBase] at *; omega
  · rw [← hw2]; exact (hwn.set (by omega)).set (hw _)
  · refine hl.remove hlast ?_ ?_ ?_ ?_
    · rw [← hw2, set_same]
    · rw [← hw2, set_ne hne.symm, set_same]
    · intro j hj hjp hjx
      exact hold _ (by omega) (by omega)
    · intro q hq; exact hold' q (List.mem_cons_of_mem _ (hsub q hq)) 0 (by omega)
  · rw [hold _ (by simp only [accBase, accNext] at *; omega) (by simp only [accBase, accNext] at *; omega)]; exact hn
  · rw [show accBase = accBase + 0 from rfl, hold' accBase (by simp) 0 (by omega)]; exact hb
  · intro q hq
    rw [show q = q + 0 from rfl, hold' q (List.mem_cons_of_mem _ (hsub q hq)) 0 (by omega)]; exact hlt q (hsub q hq)
  · rw [h1]
    refine hc.remove ?_ ?_ ?_
    · intro q hq hE
      have := hl.key_inj (hsub q hq) hx hE
      subst this
      have hnd := hl.nodup
      have hnd := (List.nodup_cons.1 hnd).2
      rw [List.nodup_append] at hnd
      rcases List.mem_append.1 hq with hq | hq
      · exact hnd.2.2 q hq q (by simp) rfl
      · exact (List.nodup_cons.1 hnd.2.1).1 hq
    · intro q hq; exact hold' q (List.mem_cons_of_mem _ (hsub q hq)) 0 (by omega)
    · intro q hq; exact hold' q (List.mem_cons_of_mem _ (hsub q hq)) 1 (by omega)

/-! ### What happens for given hints -/

/-- With the start of the list as hint every account is reported missing. -/
theorem run_search_account_start (hP : P.Has linkedListCode) (h : AccountsAre w n ps f) {a : Nat}
    (hi : 4 * w.inp 0 = accBase) :
    Reaches P (.goto (P.addr "search_account") (a :: ret :: S) w) (.goto ret (0 :: S) w.next) := by
  obtain ⟨hl, hn, hb, hlt, hc⟩ := h
  have hr := hl.room
  have hpos := hl.pos
  enter hP in linkedListCode
  kexec [b_search_account, exec_input']
  rw [valid_account (w := w.next) hn hr, if_pos (by omega), hi]
  kexec []
  rw [exec_mload_at (by simp only [accBase] at *; omega)]
  kexec [m_eq_const, m_assert_eq0, m_add_const, flag_or weq_le wgt_le, next_mem]
  rw [if_neg (by simp)]
  enter hP in linkedListCode
  kexec [b_account_not_found]
  exact .refl _

/-- With the node of the greatest key that is at most the one asked for as hint, or the start if
there is none, the right value is found: the pointer of the account, or 0. -/
theorem run_search_account_honest (hP : P.Has linkedListCode) (hw : Words w)
    (h : AccountsAre w n ps f) {a p : Nat} (ha : a < u256Max) (hi : 4 * w.inp 0 = p)
    (hp : p ∈ accBase :: ps) (hlo : p = accBase ∨ w.mem p ≤ a)
    (hhi : a < w.mem (w.mem (p + 3))) :
    Reaches P (.goto (P.addr "search_account") (a :: ret :: S) w)
      (.goto ret ((f a).getD 0 :: S) w.next) := by
  have hfull := h
  obtain ⟨hl, hn, hb, hlt, hc⟩ := h
  have hr := hl.room
  have hpos := hl.pos
  by_cases hE : p ≠ accBase ∧ w.mem p = a
  · have hmem : p ∈ ps := by
      rcases List.mem_cons.1 hp with rfl | hm
      · exact absurd rfl hE.1
      · exact hm
    have hpb := hl.ptr_bound hp
    have hfa := hc.get hmem
    rw [hE.2] at hfa
    rw [hfa]
    enter hP in linkedListCode
    kexec [b_search_account, exec_input']
    rw [valid_account (w := w.next) hn hr, if_pos (by omega), hi]
    kexec []
    rw [exec_mload_at (by simp only [accBase] at *; omega)]
    kexec [m_eq_const, m_assert_eq0, m_add_const, flag_or weq_le wgt_le, next_mem]
    have hne := hE.1
    rw [if_pos ⟨by simp only [accBase] at hne; omega, by omega⟩,
      if_pos ((wsub_eq_zero (by simp only [u256Max] at ha; omega) (hw _)).2 (by omega)),
      wadd_small (by simp only [accBase] at *; omega), exec_mload_at (by simp only [accBase] at *; omega)]
    kexec [m_jump_neq_const]
    have hmx := hl.next_ne_max hp
    rw [if_neg (by
      rw [next_mem, wsub_eq_zero (by omega) (hw _), Nat.add_comm]; simp only [u256Max] at hmx; omega)]
    enter hP in linkedListCode
    kexec [b_account_found, m_increment, m_add_const]
    rw [wadd_small (by simp only [accBase] at *; omega), exec_mload_at (by simp only [accBase] at *; omega),
      Nat.add_comm]
    kexec []
    exact .refl _
  · have hnone : f a = none := by
      obtain ⟨l, r, rfl, -, h1, h2⟩ := hl.around hp (a := a) (by omega) (.inr hhi)
      refine hc.get_none fun q hq hk => ?_
      rcases List.mem_append.1 hq with hq | hq
      · have := h1 q hq; omega
      · have := h2 q hq; omega
    rw [hnone]
    have hpb := hl.ptr_bound hp
    have hv : accBase ≤ 4 * w.inp 0 ∧ 4 * w.inp 0 < accBase + 4 * n := by omega
    enter hP in linkedListCode
    kexec [b_search_account, exec_input']
    rw [valid_account (w := w.next) hn hr, if_pos hv, hi]
    kexec []
    rw [exec_mload_at (by simp only [accBase] at *; omega)]
    kexec [m_eq_const, m_assert_eq0, m_add_const, flag_or weq_le wgt_le, next_mem]
    rw [if_neg (by simp only [accBase] at *; omega)]
    enter hP in linkedListCode
    kexec [b_account_not_found]
    exact .refl _

end Verif.Kasm
