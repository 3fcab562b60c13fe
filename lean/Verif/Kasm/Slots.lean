import Verif.Kasm.Accounts

/-! The list of storage slots in the kernel's memory, and what the routines that read, write and
remove slots do to it for every value the prover supplies. -/

namespace Verif.Kasm

/-- `@SEGMENT_STORAGE_LINKED_LIST`. -/
abbrev slotBase : Nat := 0x2300000000
/-- `@GLOBAL_METADATA_STORAGE_LINKED_LIST_NEXT_AVAILABLE`. -/
abbrev slotNext : Nat := 0x500000030

/-- The position of a node in the order of the list: address first, then slot. -/
def slotKey (mem : Nat → Nat) (p : Nat) : Nat := mem p * 2 ^ 256 + mem (p + 1)

/-- The list of slots is in memory and holds exactly the slots of `f`: for every address and slot
the value.  The layout is that of `asm/mpt/linked_list/linked_list.asm:20-29`. -/
def SlotsAre (w : World) (n : Nat) (ps : List Nat) (f : Nat → Nat → Option Nat) : Prop :=
  Linked slotBase 4 w.mem (slotKey w.mem) n ps ∧ w.mem slotNext = slotBase + 5 * n ∧
    w.mem slotBase = u256Max ∧ (∀ p ∈ ps, w.mem p < u256Max) ∧
    Content (slotKey w.mem) (fun p => w.mem (p + 2)) ps (fun K => f (K / 2 ^ 256) (K % 2 ^ 256))

/-- A table with one entry changed. -/
def upd2 (f : Nat → Nat → Option Nat) (a k : Nat) (v : Option Nat) : Nat → Nat → Option Nat :=
  fun b j => if b = a ∧ j = k then v else f b j

theorem div_key {a k : Nat} (hk : k < 2 ^ 256) : (a * 2 ^ 256 + k) / 2 ^ 256 = a := by
  rw [Nat.mul_comm, Nat.mul_add_div (by omega), Nat.div_eq_of_lt hk]; rfl

theorem mod_key {a k : Nat} (hk : k < 2 ^ 256) : (a * 2 ^ 256 + k) % 2 ^ 256 = k := by
  rw [Nat.mul_comm, Nat.mul_add_mod, Nat.mod_eq_of_lt hk]

theorem key_eq {a k b j : Nat} (hk : k < 2 ^ 256) (hj : j < 2 ^ 256) :
    a * 2 ^ 256 + k = b * 2 ^ 256 + j ↔ a = b ∧ k = j := by
  constructor
  · intro h
    have h1 := congrArg (· / 2 ^ 256) h
    have h2 := congrArg (· % 2 ^ 256) h
    simp only [div_key hk, div_key hj, mod_key hk, mod_key hj] at h1 h2
    exact ⟨h1, h2⟩
  · rintro ⟨rfl, rfl⟩; rfl

theorem key_lt {a k b j : Nat} (hk : k < 2 ^ 256) (hj : j < 2 ^ 256) :
    a * 2 ^ 256 + k < b * 2 ^ 256 + j ↔ a < b ∨ (a = b ∧ k < j) := by
  omega

theorem upd_key {f : Nat → Nat → Option Nat} {a k : Nat} {v : Option Nat} (hk : k < 2 ^ 256) :
    upd (fun K => f (K / 2 ^ 256) (K % 2 ^ 256)) (a * 2 ^ 256 + k) v =
      fun K => upd2 f a k v (K / 2 ^ 256) (K % 2 ^ 256) := by
  funext K
  simp only [upd, upd2]
  refine ite_congr (propext ?_) (fun _ => rfl) (fun _ => rfl)
  constructor
  · rintro rfl; exact ⟨div_key hk, mod_key hk⟩
  · rintro ⟨rfl, rfl⟩; rw [Nat.mul_comm]; exact (Nat.div_add_mod K (2 ^ 256)).symm

variable {P : Prog} {S : List Nat} {w : World} {ret n : Nat} {ps : List Nat}
  {f : Nat → Nat → Option Nat}

/-- `%get_valid_slot_ptr`: only the beginning of a node passes. -/
theorem valid_slot {c : List I} {s : List Nat} {h : Nat}
    (hn : w.mem slotNext = slotBase + 5 * n) (hr : 5 * n ≤ 2 ^ 32) :
    exec P (m_get_valid_slot_ptr ++ c) (h :: s) w =
      if h < n then exec P c ((slotBase + 5 * h) :: s) w
      else .goto (P.addr "panic") (h :: s) w := by
  have hd : wdiv (wsub (slotBase + 5 * n) slotBase) 5 = n := by
    rw [wsub_small (by simp only [slotBase]; omega) (by simp only [slotBase]; omega)]
    simp [wdiv]
  kexec [m_get_valid_slot_ptr, m_mul_const, m_add_const, m_assert_gt0,
      m_assert_nonzero0, m_mload_global_metadata]
  rw [exec_mload_at (by omega)]
  kexec [hn, hd]
  refine ite_congr rfl (fun hh => ?_) (fun _ => rfl)
  rw [wmul_small (by omega), wadd_small (by omega)]

/-- `search_slot`, for every hint of the prover: it aborts, or gives the default value, or gives
the value of the slot. -/
theorem run_search_slot (hP : P.Has linkedListCode) (hw : Words w)
    (h : SlotsAre w n ps f) {a k d : Nat} (ha : a < u256Max) (hk : k < 2 ^ 256) :
    Returns P False (.goto (P.addr "search_slot") (a :: k :: d :: ret :: S) w) ret fun s w' =>
      w' = w.next ∧ ((s = d :: S ∧ (slotBase + 5 * w.inp 0 = slotBase ∨
          slotKey w.mem (slotBase + 5 * w.inp 0) < a * 2 ^ 256 + k)) ∨
        ∃ v, f a k = some v ∧ s = v :: S) := by
  obtain ⟨hl, hn, hb, hlt, hc⟩ := h
  have hroom := hl.room
  renter hP in linkedListCode
  kexec [b_search_slot, exec_input']
  rw [valid_slot (w := w.next) hn hroom]
  split
  rotate_left
  · exact .of (reach_panic hP) (.panic id)
  rename_i hv
  have hm := hl.cases hv
  generalize hp : slotBase + (4 + 1) * w.inp 0 = p at *
  kexec []
  rw [exec_mload_at (by simp only [slotBase] at *; omega)]
  kexec [m_eq_const, m_assert_eq0, m_add_const, m_increment, flag_or weq_le wgt_le, next_mem]
  split
  rotate_left
  · rename_i h1
    renter hP in linkedListCode
    kexec [b_slot_not_found]
    refine .ret ⟨rfl, .inl ⟨rfl, ?_⟩⟩
    rw [slotKey, key_lt (hw _) hk]
    simp only [slotBase] at *; omega
  rename_i h1
  split
  rotate_left
  · exact .of (reach_panic hP) (.panic id)
  rename_i h2
  rw [wsub_eq_zero (by simp only [u256Max] at ha; omega) (hw _)] at h2
  rw [wadd_small (by simp only [slotBase] at *; omega), exec_mload_at (by simp only [slotBase] at *; omega), Nat.add_comm 1]
  kexec [next_mem]
  split
  rotate_left
  · rename_i h3
    renter hP in linkedListCode
    kexec [b_slot_not_found]
    refine .ret ⟨rfl, .inl ⟨rfl, .inr ?_⟩⟩
    rw [slotKey, key_lt (hw _) hk]
    omega
  rename_i h3
  split
  rotate_left
  · exact .of (reach_panic hP) (.panic id)
  rename_i h4
  rw [wsub_eq_zero hk (hw _)] at h4
  rw [wadd_small (by simp only [slotBase] at *; omega), exec_mload_at (by simp only [slotBase] at *; omega)]
  kexec [m_jump_neq_const]
  split
  · exact .panic id
  rename_i h5
  renter hP in linkedListCode
  kexec [b_slot_found_no_write, m_increment, m_add_const]
  rw [wadd_small (by simp only [slotBase] at *; omega), exec_mload_at (by simp only [slotBase] at *; omega)]
  kexec []
  refine .ret ⟨rfl, .inr ⟨_, ?_, rfl⟩⟩
  rw [next_mem, wsub_eq_zero (by omega) (hw _)] at h5
  rcases hm with hm | hm
  · rcases List.mem_cons.1 hm with hm | hm
    · exact absurd hm.symm (by simp only [slotBase] at *; omega)
    · have := hc.get hm
      simp only [slotKey, ← h2, ← h4, div_key hk, mod_key hk] at this
      rw [this, Nat.add_comm]; rfl
  · exact absurd (by rw [Nat.add_comm, hm]) h5

/-- The hint names the last node of the list whose key is at most the one of the slot, or the
start if there is none. -/
def SlotHint (w : World) (ps : List Nat) (a k : Nat) : Prop :=
  slotBase + 5 * w.inp 0 ∈ slotBase :: ps ∧
    (slotBase + 5 * w.inp 0 = slotBase ∨ slotKey w.mem (slotBase + 5 * w.inp 0) ≤ a * 2 ^ 256 + k) ∧
    a * 2 ^ 256 + k < slotKey w.mem (w.mem (slotBase + 5 * w.inp 0 + 4))

/-- The hint names the node before that of the slot. -/
def SlotPred (w : World) (ps : List Nat) (a k : Nat) : Prop :=
  slotBase + 5 * w.inp 0 ∈ slotBase :: ps ∧
    w.mem (w.mem (slotBase + 5 * w.inp 0 + 4)) = a ∧
    w.mem (w.mem (slotBase + 5 * w.inp 0 + 4) + 1) = k

/-- The cells of the list of slots and its bookkeeping. -/
def SlotCell (a : Nat) : Prop := a = slotNext ∨ (slotBase ≤ a ∧ a < slotBase + 2 ^ 32)

/-- Linking a new slot in, once its place has been checked. -/
theorem run_next_node_ok (hw : Words w)
    (h : SlotsAre w n ps f) {a k v p x : Nat} (ha : a < u256Max) (hk : k < 2 ^ 256)
    (hv : v < 2 ^ 256) (hroom : 5 * (n + 1) ≤ 2 ^ 32) (hmem : p ∈ slotBase :: ps)
    (hlo : p = slotBase ∨ slotKey w.mem p < a * 2 ^ 256 + k)
    (hhi : a * 2 ^ 256 + k < slotKey w.mem (w.mem (p + 4))) :
    Returns P True (exec P b_next_node_ok_with_value
        (x :: w.mem (p + 4) :: (slotBase + 5 * n) :: (p + 4) :: a :: k :: v :: ret :: S) w) ret
      fun s w' => s = S ∧ Keeps w w' SlotCell ∧ Words w' ∧
        ∃ ps', SlotsAre w' (n + 1) ps' (upd2 f a k (some v)) := by
  obtain ⟨hl, hn, hb, hlt, hc⟩ := h
  have hr := hl.room
  have hpb := hl.ptr_bound hmem
  kexec [b_next_node_ok_with_value, m_increment, m_add_const, m_mstore_global_metadata]
  rw [exec_mstore_at (by simp only [slotBase] at *; omega)]
  kexec []
  rw [exec_mstore_at (by simp only [slotBase] at *; omega)]
  kexec []
  rw [wadd_small (by simp only [slotBase] at *; omega), exec_mstore_at (by simp only [slotBase] at *; omega)]
  kexec []
  rw [wadd_small (a := 1) (b := 1 + (slotBase + 5 * n)) (by simp only [slotBase] at *; omega),
    wadd_small (a := 1) (b := 1 + (1 + (slotBase + 5 * n))) (by simp only [slotBase] at *; omega),
    exec_mstore_at (by simp only [slotBase] at *; omega)]
  rw [exec_mstore_at (by simp only [slotBase] at *; omega)]
  kexec []
  rw [wadd_small (by simp only [slotBase] at *; omega), exec_mstore_at (by simp only [slotBase] at *; omega)]
  kexec []
  rw [wadd_small (by simp only [slotBase] at *; omega), exec_mstore_at (by simp only [slotBase] at *; omega)]
  kexec []
  rw [show 1 + (1 + (1 + (1 + (1 + (slotBase + 5 * n))))) = slotBase + 5 * (n + 1) by omega,
    show 1 + (1 + (1 + (1 + (slotBase + 5 * n)))) = slotBase + 5 * n + 4 by omega,
    show 1 + (1 + (1 + (slotBase + 5 * n))) = slotBase + 5 * n + 3 by omega,
    show 1 + (1 + (slotBase + 5 * n)) = slotBase + 5 * n + 2 by omega,
    show 1 + (slotBase + 5 * n) = slotBase + 5 * n + 1 by omega]
  generalize hw2 : World.set (World.set _ (slotBase + 5 * n + 4) _) _ _ = w2
  have hfin : ∀ x, slotBase ≤ x → x < slotBase + 2 ^ 32 → w2.mem x =
      if x = slotBase + 5 * n + 4 then w.mem (p + 4) else if x = slotBase + 5 * n + 2 then v else
      if x = slotBase + 5 * n + 3 then v else
      if x = slotBase + 5 * n + 1 then k else if x = slotBase + 5 * n then a else
      if x = p + 4 then slotBase + 5 * n else w.mem x := by
    intro x hx hx'
    rw [← hw2, set_ne (by simp only [slotBase] at *; omega), set_mem, set_mem, set_mem,
      set_mem, set_mem, set_mem]
  have hold : ∀ q ∈ slotBase :: ps, ∀ k, k ≤ 3 → w2.mem (q + k) = w.mem (q + k) := by
    intro q hq k hk
    have hqb := hl.ptr_bound hq
    rw [hfin _ (by omega) (by omega), if_neg (by omega), if_neg (by omega), if_neg (by omega), if_neg (by omega),
      if_neg (by omega), if_neg]
    intro hE
    have := hl.mem_inj hq hmem (by omega) (by omega) hE
    omega
  have hkey : ∀ q ∈ slotBase :: ps, slotKey w2.mem q = slotKey w.mem q := by
    intro q hq
    have h0 := hold q hq 0 (by omega)
    have h1 := hold q hq 1 (by omega)
    simp only [Nat.add_zero] at h0
    simp only [slotKey, h0, h1]
  have hnew0 : w2.mem (slotBase + 5 * n) = a := by
    rw [hfin _ (by omega) (by omega), if_neg (by omega), if_neg (by omega), if_neg (by omega), if_neg (by omega),
      if_pos rfl]
  have hnew : slotKey w2.mem (slotBase + 5 * n) = a * 2 ^ 256 + k := by
    rw [slotKey, hnew0, hfin _ (by omega) (by omega), if_neg (by omega), if_neg (by omega), if_neg (by omega),
      if_pos rfl]
  have hnewv : w2.mem (slotBase + 5 * n + 2) = v := by
    rw [hfin _ (by omega) (by omega), if_neg (by omega), if_pos rfl]
  obtain ⟨l, r, rfl, hlast, hlo', hhi'⟩ := hl.around hmem (a := a * 2 ^ 256 + k) hlo (.inr hhi)
  have hlink : Linked slotBase 4 w2.mem (slotKey w2.mem) (n + 1) (l ++ (slotBase + (4 + 1) * n) :: r) := by
    refine hl.insert hlast (by omega) ?_ ?_ ?_ ?_ ?_ ?_
    · rw [hfin _ (by omega) (by omega), if_neg (by omega), if_neg (by omega), if_neg (by omega),
        if_neg (by omega), if_neg (by omega), if_pos rfl]
    · rw [hfin _ (by omega) (by omega), if_pos rfl]
    · intro j hj hjp
      rw [hfin _ (by omega) (by omega), if_neg (by omega), if_neg (by omega), if_neg (by omega),
        if_neg (by omega), if_neg (by omega), if_neg (by omega)]
    · intro q hq; exact hkey q (List.mem_cons_of_mem _ hq)
    · intro q hq; rw [hnew]; exact hlo' q hq
    · intro q hq; rw [hnew]; exact hhi' q hq
  refine .ret ⟨rfl, ?_, ?_, _, hlink, ?_, ?_, ?_, ?_⟩
  · rw [← hw2]
    refine ((((((Keeps.set ?_).trans (Keeps.set ?_)).trans (Keeps.set ?_)).trans (Keeps.set ?_)).trans
      (Keeps.set ?_)).trans (Keeps.set ?_)).trans (Keeps.set (.inl rfl)) <;>
    · refine .inr ?_; simp only [slotBase] at *; omega
  · rw [← hw2]
    exact ((((((hw.set (by simp only [slotBase]; omega)).set (by simp only [u256Max] at ha; omega)).set hk).set
      hv).set hv).set (hw _)).set (by simp only [slotBase]; omega)
  · rw [← hw2, set_same]
  · rw [show slotBase = slotBase + 0 from rfl, hold slotBase (by simp) 0 (by omega)]; exact hb
  · intro q hq
    rcases List.mem_append.1 hq with hq | hq
    · rw [show q = q + 0 from rfl, hold q (by simp [hq]) 0 (by omega)]; exact hlt q (by simp [hq])
    · rcases List.mem_cons.1 hq with rfl | hq
      · rw [hnew0]; exact ha
      · rw [show q = q + 0 from rfl, hold q (by simp [hq]) 0 (by omega)]; exact hlt q (by simp [hq])
  · have := Content.insert (key' := slotKey w2.mem) (val' := fun q => w2.mem (q + 2))
      (x := slotBase + 5 * n) hc ?_ ?_ ?_
    · rw [hnew, hnewv, upd_key hk] at this; exact this
    · intro q hq
      rw [hnew]
      rcases List.mem_append.1 hq with hq | hq
      · have := hlo' q hq; omega
      · have := hhi' q hq; omega
    · intro q hq; exact hkey q (List.mem_cons_of_mem _ hq)
    · intro q hq; exact hold q (List.mem_cons_of_mem _ hq) 2 (by omega)

/-- What `insert_slot_with_value` does when the slot is new, from `insert_new_slot_with_value` on. -/
theorem run_insert_new_slot (hP : P.Has linkedListCode) (hw : Words w)
    (h : SlotsAre w n ps f) {a k v j : Nat} {x : Nat} (ha : a < u256Max) (hk : k < 2 ^ 256)
    (hv : v < 2 ^ 256) (hroom : 5 * (n + 1) ≤ 2 ^ 32) (hj : j < n)
    (hlo : slotBase + 5 * j = slotBase ∨ slotKey w.mem (slotBase + 5 * j) < a * 2 ^ 256 + k) :
    Returns P (slotBase + 5 * j ∈ slotBase :: ps ∧
        a * 2 ^ 256 + k < slotKey w.mem (w.mem (slotBase + 5 * j + 4))) (.goto (P.addr "insert_new_slot_with_value")
        (x :: (slotBase + 5 * j) :: a :: k :: v :: ret :: S) w) ret
      fun s w' => s = S ∧ Keeps w w' SlotCell ∧ Words w' ∧
        ∃ ps', SlotsAre w' (n + 1) ps' (upd2 f a k (some v)) := by
  have hfull := h
  obtain ⟨hl, hn, hb, hlt, hc⟩ := h
  have hr := hl.room
  have hcase := hl.cases hj
  generalize hp : slotBase + (4 + 1) * j = p at *
  renter hP in linkedListCode
  kexec [b_insert_new_slot_with_value, m_add_const, m_mload_global_metadata]
  rw [exec_mload_at (by omega)]
  kexec []
  rw [wadd_small (by simp only [slotBase] at *; omega), exec_mload_at (by simp only [slotBase] at *; omega),
    hn, Nat.add_comm 4]
  kexec [m_eq_const, m_assert_zero0]
  split
  rotate_left
  · rename_i h2
    refine .of (reach_panic hP) (.panic fun h => h2 ?_)
    exact fun hE => hl.next_ne_max h.1 hE.symm
  rename_i h2
  have hmem : p ∈ slotBase :: ps := by
    rcases hcase with hm | hm
    · exact hm
    · exact absurd hm.symm h2
  have hnm := hl.next_mem hmem
  have hnb := hl.ptr_bound hnm
  have hpb := hl.ptr_bound hmem
  rw [exec_mload_at (by simp only [slotBase] at *; omega)]
  kexec [m_assert_lt0, m_assert_nonzero0, m_assert_eq0, m_increment, m_add_const]
  split
  rotate_left
  · rename_i h3
    renter hP in linkedListCode
    exact (run_next_node_ok hw hfull ha hk hv hroom hmem hlo
      (by rw [slotKey, key_lt hk (hw _)]; omega)).mono (fun _ => trivial) fun _ _ h => h
  rename_i h3
  split
  rotate_left
  · rename_i h4
    rw [wsub_eq_zero (by simp only [u256Max] at ha; omega) (hw _)] at h4
    refine .of (reach_panic hP) (.panic fun h => ?_)
    have := h.2
    rw [slotKey, key_lt hk (hw _)] at this
    omega
  rename_i h4
  rw [wsub_eq_zero (by simp only [u256Max] at ha; omega) (hw _)] at h4
  rw [wadd_small (by simp only [slotBase] at *; omega), exec_mload_at (by simp only [slotBase] at *; omega)]
  kexec []
  split
  rotate_left
  · rename_i h5
    rw [Nat.add_comm 1] at h5
    refine .of (reach_panic hP) (.panic fun h => ?_)
    have := h.2
    rw [slotKey, key_lt hk (hw _)] at this
    omega
  rename_i h5
  rw [Nat.add_comm 1] at h5
  exact (run_next_node_ok hw hfull ha hk hv hroom hmem hlo
      (by rw [slotKey, key_lt hk (hw _)]; omega)).mono (fun _ => trivial) fun _ _ h => h

/-- `insert_slot_with_value`, for every hint of the prover. -/
theorem run_insert_slot (hP : P.Has linkedListCode) (hw : Words w)
    (h : SlotsAre w n ps f) {a k v : Nat} (ha : a < u256Max) (hk : k < 2 ^ 256)
    (hv : v < 2 ^ 256) (hroom : 5 * (n + 1) ≤ 2 ^ 32) :
    Returns P (SlotHint w ps a k) (.goto (P.addr "insert_slot_with_value") (a :: k :: v :: ret :: S) w) ret
      fun s w' => s = S ∧ Keeps w.next w' SlotCell ∧ Words w' ∧
        ∃ n' ps', n' ≤ n + 1 ∧ SlotsAre w' n' ps' (upd2 f a k (some v)) := by
  have hfull := h
  obtain ⟨hl, hn, hb, hlt, hc⟩ := h
  have hr := hl.room
  have hwn : Words w.next := hw
  have hH : SlotHint w ps a k → slotBase + (4 + 1) * w.inp 0 ∈ slotBase :: ps ∧
    (slotBase + (4 + 1) * w.inp 0 = slotBase ∨
      slotKey w.mem (slotBase + (4 + 1) * w.inp 0) ≤ a * 2 ^ 256 + k) ∧
    a * 2 ^ 256 + k < slotKey w.mem (w.mem (slotBase + (4 + 1) * w.inp 0 + 4)) := id
  generalize SlotHint w ps a k = H at hH ⊢
  renter hP in linkedListCode
  kexec [b_insert_slot_with_value, exec_input']
  rw [valid_slot (w := w.next) hn hr]
  split
  rotate_left
  · exact .of (reach_panic hP) (.panic fun h => by have := hl.ptr_bound (hH h).1; omega)
  rename_i hval
  have hcase := hl.cases hval
  have hnew : ∀ x, (slotBase + 5 * w.inp 0 = slotBase ∨
      slotKey w.mem (slotBase + 5 * w.inp 0) < a * 2 ^ 256 + k) →
      Returns P H (.goto (P.addr "insert_new_slot_with_value")
        (x :: (slotBase + 5 * w.inp 0) :: a :: k :: v :: ret :: S) w.next) ret
      fun s w' => s = S ∧ Keeps w.next w' SlotCell ∧ Words w' ∧
        ∃ n' ps', n' ≤ n + 1 ∧ SlotsAre w' n' ps' (upd2 f a k (some v)) := fun x hx =>
    (run_insert_new_slot (w := w.next) hP hwn hfull ha hk hv hroom hval hx).mono
      (fun h => ⟨(hH h).1, (hH h).2.2⟩) fun s w' ⟨h1, h2, h3, ps', h4⟩ => ⟨h1, h2, h3, n + 1, ps', by omega, h4⟩
  generalize hp : slotBase + (4 + 1) * w.inp 0 = p at *
  kexec []
  rw [exec_mload_at (by simp only [slotBase] at *; omega)]
  kexec [m_eq_const, m_assert_eq0, m_add_const, m_increment, flag_or weq_le wgt_le, next_mem]
  split
  rotate_left
  · rename_i h1
    refine hnew _ ?_
    rw [slotKey, key_lt (hw _) hk]
    simp only [slotBase] at *; omega
  rename_i h1
  split
  rotate_left
  · rename_i h2
    rw [wsub_eq_zero (by simp only [u256Max] at ha; omega) (hw _)] at h2
    refine .of (reach_panic hP) (.panic fun h => ?_)
    have h3 : slotBase ≠ p := h1.1
    have := (hH h).2.1.resolve_left fun hE => h3 hE.symm
    rw [slotKey] at this; omega
  rename_i h2
  rw [wsub_eq_zero (by simp only [u256Max] at ha; omega) (hw _)] at h2
  rw [wadd_small (by simp only [slotBase] at *; omega), exec_mload_at (by simp only [slotBase] at *; omega), Nat.add_comm 1]
  kexec [next_mem]
  split
  rotate_left
  · rename_i h3
    refine hnew _ (.inr ?_)
    rw [slotKey, key_lt (hw _) hk]
    omega
  rename_i h3
  split
  rotate_left
  · rename_i h4
    rw [wsub_eq_zero hk (hw _)] at h4
    refine .of (reach_panic hP) (.panic fun h => ?_)
    have h5 : slotBase ≠ p := h1.1
    have := (hH h).2.1.resolve_left fun hE => h5 hE.symm
    rw [slotKey] at this; omega
  rename_i h4
  rw [wsub_eq_zero hk (hw _)] at h4
  rw [wadd_small (by simp only [slotBase] at *; omega), exec_mload_at (by simp only [slotBase] at *; omega)]
  kexec [m_jump_neq_const]
  split
  · rename_i h5
    rw [next_mem, wsub_eq_zero (by omega) (hw _), Nat.add_comm] at h5
    exact .panic fun h => hl.next_ne_max (hH h).1 h5.symm
  rename_i h5
  rw [next_mem, wsub_eq_zero (by omega) (hw _), Nat.add_comm] at h5
  have hmem : p ∈ ps := by
    rcases hcase with hm | hm
    · rcases List.mem_cons.1 hm with hm | hm
      · exact absurd hm.symm h1.1
      · exact hm
    · exact absurd hm.symm h5
  renter hP in linkedListCode
  kexec [b_slot_found_write_value, m_add_const]
  rw [wadd_small (by simp only [slotBase] at *; omega), exec_mstore_at (by simp only [slotBase] at *; omega),
    Nat.add_comm 2]
  kexec []
  have hfr : ∀ b, b ≠ p + 2 → (w.next.set (p + 2) v).mem b = w.mem b := fun b hb => set_ne hb
  have hq : ∀ q ∈ slotBase :: ps, ∀ k, k ≤ 4 → k ≠ 2 → q + k ≠ p + 2 := by
    intro q hq k hk hk1 hE
    have := hl.mem_inj hq (List.mem_cons_of_mem _ hmem) hk (by omega) hE
    exact hk1 this.2
  have hkey : ∀ q ∈ slotBase :: ps, slotKey (w.next.set (p + 2) v).mem q = slotKey w.mem q := by
    intro q hm
    simp only [slotKey]
    rw [hfr _ (hq q hm 1 (by omega) (by omega)), hfr q (hq q hm 0 (by omega) (by omega))]
  refine .ret ⟨rfl, Keeps.set ?_, hwn.set hv, n, ps, by omega, ?_, ?_, ?_, ?_, ?_⟩
  · refine .inr ?_; simp only [slotBase] at *; omega
  · refine hl.congr (fun j hj => hfr _ ?_) fun q hm => hkey q (List.mem_cons_of_mem _ hm)
    intro hE
    rw [← hp] at hE
    have := Linked.node_inj (by omega) (by omega) hE
    omega
  · rw [hfr _ (by simp only [slotBase, slotNext] at *; omega), hn]
  · rw [hfr slotBase (hq slotBase (by simp) 0 (by omega) (by omega)), hb]
  · intro q hm
    rw [hfr q (hq q (List.mem_cons_of_mem _ hm) 0 (by omega) (by omega))]; exact hlt q hm
  · have := Content.update (key' := slotKey (w.next.set (p + 2) v).mem)
      (val' := fun q => (w.next.set (p + 2) v).mem (q + 2)) hc hmem
      (fun q hm hk => hl.key_inj hm hmem hk)
      (fun q hm => hkey q (List.mem_cons_of_mem _ hm))
      (fun q hm hne => hfr _ (by omega))
    rw [set_same, slotKey, ← h2, ← h4, upd_key hk] at this
    exact this

/-- `remove_slot`, for every hint of the prover. -/
theorem run_remove_slot (hP : P.Has linkedListCode) (hw : Words w)
    (h : SlotsAre w n ps f) {a k : Nat} (ha : a < u256Max) (hk : k < 2 ^ 256) :
    Returns P (SlotPred w ps a k) (.goto (P.addr "remove_slot") (a :: k :: ret :: S) w) ret
      fun s w' => s = S ∧ Keeps w.next w' SlotCell ∧ Words w' ∧
        (∃ v, f a k = some v) ∧ ∃ ps', SlotsAre w' n ps' (upd2 f a k none) := by
  obtain ⟨hl, hn, hb, hlt, hc⟩ := h
  have hr := hl.room
  have hwn : Words w.next := hw
  have hH : SlotPred w ps a k → slotBase + (4 + 1) * w.inp 0 ∈ slotBase :: ps ∧
    w.mem (w.mem (slotBase + (4 + 1) * w.inp 0 + 4)) = a ∧
    w.mem (w.mem (slotBase + (4 + 1) * w.inp 0 + 4) + 1) = k := id
  generalize SlotPred w ps a k = H at hH ⊢
  renter hP in linkedListCode
  kexec [b_remove_slot, exec_input']
  rw [valid_slot (w := w.next) hn hr]
  split
  rotate_left
  · exact .of (reach_panic hP) (.panic fun h => by have := hl.ptr_bound (hH h).1; omega)
  rename_i hval
  have hcase := hl.cases hval
  generalize hp : slotBase + (4 + 1) * w.inp 0 = p at *
  kexec [m_add_const]
  rw [wadd_small (by simp only [slotBase] at *; omega), exec_mload_at (by simp only [slotBase] at *; omega),
    Nat.add_comm 4, next_mem]
  kexec []
  rcases hcase with hmem | hdead
  rotate_left
  · rw [hdead, exec_mload_bad (by decide)]; exact .stuck fun h => hl.next_ne_max (hH h).1 hdead
  have hnm := hl.next_mem hmem
  have hnb := hl.ptr_bound hnm
  have hpb := hl.ptr_bound hmem
  rw [exec_mload_at (by simp only [slotBase] at *; omega)]
  kexec [m_assert_eq0, m_increment, m_add_const]
  split
  rotate_left
  · rename_i h1
    rw [next_mem, wsub_eq_zero (by simp only [u256Max] at ha; omega) (hw _)] at h1
    exact .of (reach_panic hP) (.panic fun h => h1 (hH h).2.1.symm)
  rename_i h1
  rw [next_mem, wsub_eq_zero (by simp only [u256Max] at ha; omega) (hw _)] at h1
  have hx : w.mem (p + 4) ∈ ps := by
    rcases List.mem_cons.1 hnm with hm | hm
    · rw [hm, hb] at h1; exact absurd h1 (by omega)
    · exact hm
  generalize hxe : w.mem (p + 4) = x at *
  obtain ⟨hpx, l, r, rfl, hlast⟩ := hl.split_next hmem hxe hx
  rw [wadd_small (by simp only [slotBase] at *; omega), exec_mload_at (by simp only [slotBase] at *; omega)]
  kexec []
  split
  rotate_left
  · rename_i h2
    rw [next_mem, wsub_eq_zero hk (hw _), Nat.add_comm 1] at h2
    exact .of (reach_panic hP) (.panic fun h => h2 (hH h).2.2.symm)
  rename_i h2
  rw [next_mem, wsub_eq_zero hk (hw _), Nat.add_comm 1] at h2
  rw [wadd_small (by simp only [slotBase] at *; omega), exec_mload_at (by simp only [slotBase] at *; omega)]
  kexec [m_mstore_u256_max]
  rw [exec_mstore_at (by simp only [slotBase] at *; omega)]
  rw [exec_mstore_at (by simp only [slotBase] at *; omega), Nat.add_comm 4, next_mem]
  kexec [m_pop2, rep]
  have hxm' := List.mem_cons_of_mem slotBase hx
  have hne : p + 4 ≠ x + 4 := by omega
  generalize hw2 : (w.next.set (x + 4) _).set (p + 4) (w.mem (x + 4)) = w2
  have hold : ∀ b, b ≠ p + 4 → b ≠ x + 4 → w2.mem b = w.mem b := by
    intro b hb1 hb2
    rw [← hw2, set_ne hb1, set_ne hb2]; rfl
  have hold' : ∀ q ∈ slotBase :: (l ++ x :: r), ∀ k, k ≤ 3 → w2.mem (q + k) = w.mem (q + k) := by
    intro q hq k hk
    refine hold _ (fun hE => ?_) fun hE => ?_
    · have := hl.mem_inj hq hmem (by omega) (by omega) hE; omega
    · have := hl.mem_inj hq hxm' (by omega) (by omega) hE; omega
  have hkey : ∀ q ∈ slotBase :: (l ++ x :: r), slotKey w2.mem q = slotKey w.mem q := by
    intro q hq
    have h0 := hold' q hq 0 (by omega)
    have h1 := hold' q hq 1 (by omega)
    simp only [Nat.add_zero] at h0
    simp only [slotKey, h0, h1]
  have hsub : ∀ q ∈ l ++ r, q ∈ l ++ x :: r := by
    intro q hq; rcases List.mem_append.1 hq with hq | hq <;> simp [hq]
  have hfx := hc.get hx
  simp only [slotKey, ← h1, ← h2, div_key hk, mod_key hk] at hfx
  refine .ret ⟨rfl, ?_, ?_, ⟨_, hfx⟩, l ++ r, ?_, ?_, ?_, ?_, ?_⟩
  · rw [← hw2]
    refine (Keeps.set ?_).trans (Keeps.set ?_) <;>
    · refine .inr ?_; simp only [slotBase] at *; omega
  · rw [← hw2]; exact (hwn.set (by omega)).set (hw _)
  · refine hl.remove hlast ?_ ?_ ?_ ?_
    · rw [← hw2, set_same]
    · rw [← hw2, set_ne hne.symm, set_same]
    · intro j hj hjp hjx
      exact hold _ (by omega) (by omega)
    · intro q hq; exact hkey q (List.mem_cons_of_mem _ (hsub q hq))
  · rw [hold _ (by simp only [slotBase, slotNext] at *; omega) (by simp only [slotBase, slotNext] at *; omega)]; exact hn
  · rw [show slotBase = slotBase + 0 from rfl, hold' slotBase (by simp) 0 (by omega)]; exact hb
  · intro q hq
    rw [show q = q + 0 from rfl, hold' q (List.mem_cons_of_mem _ (hsub q hq)) 0 (by omega)]; exact hlt q (hsub q hq)
  · rw [← upd_key hk, h1, h2]
    refine hc.remove ?_ ?_ ?_
    · intro q hq hE
      have := hl.key_inj (hsub q hq) hx hE
      subst this
      have hnd := hl.nodup
      have hnd := (List.nodup_cons.1 hnd).2
      rw [List.nodup_append] at hnd
      rcases List.mem_append.1 hq with hq | hq
      · exact hnd.2.2 q hq q (by simp) rfl
      · exact (List.nodup_cons.1 hnd.2.1).1 hq
    · intro q hq; exact hkey q (List.mem_cons_of_mem _ (hsub q hq))
    · intro q hq; exact hold' q (List.mem_cons_of_mem _ (hsub q hq)) 2 (by omega)

/-! ### What happens for given hints -/

/-- With the start of the list as hint every slot reads as the default value. -/
theorem run_search_slot_start (hP : P.Has linkedListCode) (h : SlotsAre w n ps f) {a k d : Nat}
    (hi : w.inp 0 = 0) :
    Reaches P (.goto (P.addr "search_slot") (a :: k :: d :: ret :: S) w)
      (.goto ret (d :: S) w.next) := by
  obtain ⟨hl, hn, hb, hlt, hc⟩ := h
  have hr := hl.room
  have hpos := hl.pos
  enter hP in linkedListCode
  kexec [b_search_slot, exec_input']
  rw [valid_slot (w := w.next) hn hr, if_pos (by omega), hi]
  kexec []
  rw [exec_mload_at (by simp only [slotBase] at *; omega)]
  kexec [m_eq_const, m_assert_eq0, m_add_const, m_increment, flag_or weq_le wgt_le, next_mem]
  rw [if_neg (by simp)]
  enter hP in linkedListCode
  kexec [b_slot_not_found]
  exact .refl _

/-- With the node of the greatest key that is at most the one asked for as hint, or the start if
there is none, the right value is found: that of the slot, or the default. -/
theorem run_search_slot_honest (hP : P.Has linkedListCode) (hw : Words w)
    (h : SlotsAre w n ps f) {a k d p : Nat} (ha : a < u256Max) (hk : k < 2 ^ 256)
    (hi : slotBase + 5 * w.inp 0 = p)
    (hp : p ∈ slotBase :: ps) (hlo : p = slotBase ∨ slotKey w.mem p ≤ a * 2 ^ 256 + k)
    (hhi : a * 2 ^ 256 + k < slotKey w.mem (w.mem (p + 4))) :
    Reaches P (.goto (P.addr "search_slot") (a :: k :: d :: ret :: S) w)
      (.goto ret ((f a k).getD d :: S) w.next) := by
  obtain ⟨hl, hn, hb, hlt, hc⟩ := h
  have hr := hl.room
  have hpos := hl.pos
  have hpb := hl.ptr_bound hp
  enter hP in linkedListCode
  kexec [b_search_slot, exec_input']
  rw [valid_slot (w := w.next) hn hr, if_pos (by omega), hi]
  kexec []
  rw [exec_mload_at (by simp only [slotBase] at *; omega)]
  kexec [m_eq_const, m_assert_eq0, m_add_const, m_increment, flag_or weq_le wgt_le, next_mem]
  by_cases hE : p ≠ slotBase ∧ slotKey w.mem p = a * 2 ^ 256 + k
  · have hmem : p ∈ ps := by
      rcases List.mem_cons.1 hp with rfl | hm
      · exact absurd rfl hE.1
      · exact hm
    have hfa := hc.get hmem
    simp only [hE.2, div_key hk, mod_key hk] at hfa
    rw [hfa]
    have hE2 := hE.2
    rw [slotKey, key_eq (hw _) hk] at hE2
    have hne := hE.1
    rw [if_pos ⟨by simp only [slotBase] at hne; omega, by omega⟩,
      if_pos ((wsub_eq_zero (by simp only [u256Max] at ha; omega) (hw _)).2 (by omega)),
      wadd_small (by simp only [slotBase] at *; omega), exec_mload_at (by simp only [slotBase] at *; omega),
      Nat.add_comm 1]
    kexec [next_mem]
    rw [if_pos (by omega), if_pos ((wsub_eq_zero hk (hw _)).2 (by omega)),
      wadd_small (by simp only [slotBase] at *; omega), exec_mload_at (by simp only [slotBase] at *; omega)]
    kexec [m_jump_neq_const]
    have hmx := hl.next_ne_max hp
    rw [if_neg (by
      rw [next_mem, wsub_eq_zero (by omega) (hw _), Nat.add_comm]; simp only [u256Max] at hmx; omega)]
    enter hP in linkedListCode
    kexec [b_slot_found_no_write, m_increment, m_add_const]
    rw [wadd_small (by simp only [slotBase] at *; omega), exec_mload_at (by simp only [slotBase] at *; omega),
      Nat.add_comm]
    kexec []
    exact .refl _
  · have hnone : f a k = none := by
      obtain ⟨l, r, rfl, -, h1, h2⟩ := hl.around hp (a := a * 2 ^ 256 + k) (by omega) (.inr hhi)
      have := hc.get_none (a := a * 2 ^ 256 + k) fun q hq hk => by
        rcases List.mem_append.1 hq with hq | hq
        · have := h1 q hq; omega
        · have := h2 q hq; omega
      simp only [div_key hk, mod_key hk] at this
      exact this
    rw [hnone]
    by_cases h1 : 150323855360 ≠ p ∧ a ≤ w.mem p
    · have hne : slotBase ≠ p := h1.1
      have hlo' : slotKey w.mem p < a * 2 ^ 256 + k := by omega
      rw [slotKey, key_lt (hw _) hk] at hlo'
      rw [if_pos h1, if_pos ((wsub_eq_zero (by simp only [u256Max] at ha; omega) (hw _)).2 (by omega)),
        wadd_small (by simp only [slotBase] at *; omega), exec_mload_at (by simp only [slotBase] at *; omega),
        Nat.add_comm 1]
      kexec [next_mem]
      rw [if_neg (by omega)]
      enter hP in linkedListCode
      kexec [b_slot_not_found]
      exact .refl _
    · rw [if_neg h1]
      enter hP in linkedListCode
      kexec [b_slot_not_found]
      exact .refl _

end Verif.Kasm
