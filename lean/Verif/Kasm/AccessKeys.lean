import Verif.Kasm.Access

/-! The list of accessed storage keys. -/

namespace Verif.Kasm

/-- The list of accessed storage keys is in memory and holds exactly the keys of `f`: for every
address and key the place of its value.  The layout is that of `asm/core/access_lists.asm:11`
and `:284-350`: address, key, value, pointer to the next node. -/
def KeysAre (w : World) (n : Nat) (ps : List Nat) (f : Nat → Nat → Option Nat) : Prop :=
  Linked keyBase 3 w.mem (slotKey w.mem) n ps ∧ w.mem keyEnd = keyBase + 4 * n ∧
    w.mem keyBase = u256Max ∧ (∀ p ∈ ps, w.mem p < u256Max) ∧
    Content (slotKey w.mem) (fun p => p + 2) ps (fun K => f (K / 2 ^ 256) (K % 2 ^ 256))

variable {P : Prog} {S : List Nat} {w : World} {ret n : Nat} {ps : List Nat}
  {f : Nat → Nat → Option Nat}

/-- `%get_valid_storage_ptr`: what passes is a multiple of four below the end of the list. -/
theorem valid_key {c : List I} {s : List Nat} {h : Nat}
    (hn : w.mem keyEnd = keyBase + 4 * n) (hr : 4 * n ≤ 2 ^ 32) :
    exec P (m_get_valid_storage_ptr ++ c) (h :: s) w =
      if 4 * h < keyBase + 4 * n then exec P c (4 * h :: s) w
      else .goto (P.addr "panic") (h :: s) w := by
  have hd : wdiv (keyBase + 4 * n) 4 = (keyBase + 4 * n) / 4 := by simp [wdiv]
  kexec [m_get_valid_storage_ptr, m_mul_const, m_div_const, m_assert_gt0, m_assert_nonzero0, m_mload_global_metadata]
  rw [exec_mload_at (by omega)]
  kexec [hn, hd]
  refine ite_congr (propext ?_) (fun hh => ?_) (fun _ => rfl)
  · simp only [keyBase] at *; omega
  · rw [wmul_small (by simp only [keyBase] at *; omega)]

/-- The cells of the list of storage keys and its bookkeeping. -/
def KeyCell (a : Nat) : Prop := a = keyEnd ∨ (keyBase ≤ a ∧ a < keyBase + 2 ^ 32)

/-- The hint names the last node of the list whose address and key are at most `a` and `k`, or the
start if there is none. -/
def KeyHint (w : World) (ps : List Nat) (a k : Nat) : Prop :=
  4 * w.inp 0 ∈ keyBase :: ps ∧
    (4 * w.inp 0 = keyBase ∨ slotKey w.mem (4 * w.inp 0) ≤ a * 2 ^ 256 + k) ∧
    a * 2 ^ 256 + k < slotKey w.mem (w.mem (4 * w.inp 0 + 3))

/-- The hint names the node before that of `a` and `k`. -/
def KeyPred (w : World) (ps : List Nat) (a k : Nat) : Prop :=
  4 * w.inp 0 ∈ keyBase :: ps ∧ w.mem (w.mem (4 * w.inp 0 + 3)) = a ∧
    w.mem (w.mem (4 * w.inp 0 + 3) + 1) = k

theorem flag_less {x y : Nat} {u v z t : Nat} :
    wadd (wmul (wlt x y) (weq u v)) (wlt z t) ≠ 0 ↔ (x < y ∧ u = v) ∨ z < t := by
  simp only [wadd, wmul, weq, wlt]
  repeat' split
  all_goals simp_all

/-- What follows `insert_storage_key`: the key is new, or the hint is refused. -/
theorem run_insert_new_key (hP : P.Has accessCode) (hw : Words w)
    (h : KeysAre w n ps f) {a k p x : Nat} (ha : a < u256Max) (hk : k < 2 ^ 256)
    (hroom : 4 * (n + 1) ≤ 2 ^ 32)
    (hd : w.mem jdatLen + 3 ≤ 2 ^ 32) (hj : w.mem jourLen < 2 ^ 32)
    (hbd : keyBase ≤ p ∧ p + 3 < keyBase + 4 * n)
    (hcase : p ∈ keyBase :: ps ∨ w.mem (p + 3) = u256Max)
    (hlo : p = keyBase ∨ slotKey w.mem p < a * 2 ^ 256 + k) :
    Returns P (p ∈ keyBase :: ps ∧ a * 2 ^ 256 + k < slotKey w.mem (w.mem (p + 3)))
      (.goto (P.addr "insert_storage_key") (x :: p :: a :: k :: ret :: S) w) ret
      fun s w' => f a k = none ∧ s = 1 :: (keyBase + 4 * n + 2) :: S ∧ Words w' ∧ Logged w w' [6, a, k] ∧
          Keeps w w' (fun b => KeyCell b ∨ JourCell w 3 b) ∧
          (∀ b j q, j < 2 ^ 256 → f b j = some q → w'.mem q = w.mem q) ∧
          ∃ ps', KeysAre w' (n + 1) ps' (upd2 f a k (some (keyBase + 4 * n + 2))) := by
  obtain ⟨hl, hn, hb, hlt, hc⟩ := h
  have hr := hl.room
  renter hP.accessLists in accessListsCode
  kexec [b_insert_storage_key, m_increment, m_add_const, m_mload_global_metadata]
  rw [exec_mload_at (by omega)]
  kexec []
  rw [wadd_small (by simp only [keyBase] at *; omega), exec_mload_at (by simp only [keyBase] at *; omega),
    hn, Nat.add_comm 3]
  kexec [m_eq_const, m_assert_zero0]
  split
  rotate_left
  · rename_i h2
    refine .of (reach_panic' hP) (.panic fun h => h2 ?_)
    exact fun hE => hl.next_ne_max h.1 hE.symm
  rename_i h2
  have hmem : p ∈ keyBase :: ps := by
    rcases hcase with hm | hm
    · exact hm
    · exact absurd hm.symm h2
  have hnm := hl.next_mem hmem
  have hnb := hl.ptr_bound hnm
  have hpb := hl.ptr_bound hmem
  rw [exec_mload_at (by simp only [keyBase] at *; omega)]
  kexec []
  rw [wadd_small (by simp only [keyBase] at *; omega), exec_mload_at (by simp only [keyBase] at *; omega)]
  kexec [m_assert_nonzero0, flag_less]
  rw [Nat.add_comm 1]
  have hless : (k < w.mem (w.mem (p + 3) + 1) ∧ w.mem (w.mem (p + 3)) = a ∨ a < w.mem (w.mem (p + 3))) ↔
      a * 2 ^ 256 + k < slotKey w.mem (w.mem (p + 3)) := by
    rw [slotKey, key_lt hk (hw _)]; omega
  split
  rotate_left
  · rename_i h3
    exact .of (reach_panic' hP) (.panic fun h => h3 (hless.2 h.2))
  rename_i h3
  replace h3 := hless.1 h3
  clear hless
  rw [exec_mstore_at (by simp only [keyBase] at *; omega)]
  kexec []
  rw [exec_mstore_at (by simp only [keyBase] at *; omega)]
  kexec []
  rw [wadd_small (b := keyBase + 4 * n) (by simp only [keyBase] at *; omega),
    exec_mstore_at (by simp only [keyBase] at *; omega)]
  kexec []
  rw [wadd_small (b := 1 + (keyBase + 4 * n)) (by simp only [keyBase]; omega),
    wadd_small (b := 1 + (1 + (keyBase + 4 * n))) (by simp only [keyBase]; omega),
    exec_mstore_at (by simp only [keyBase] at *; omega)]
  kexec [m_mstore_global_metadata]
  rw [wadd_small (by simp only [keyBase]; omega), exec_mstore_at (by simp only [keyBase] at *; omega)]
  kexec [m_journal_add_storage_loaded]
  rw [show 1 + (1 + (1 + (1 + (keyBase + 4 * n)))) = keyBase + 4 * (n + 1) by omega,
    show 1 + (1 + (1 + (keyBase + 4 * n))) = keyBase + 4 * n + 3 by omega,
    show 1 + (1 + (keyBase + 4 * n)) = keyBase + 4 * n + 2 by omega,
    show 1 + (keyBase + 4 * n) = keyBase + 4 * n + 1 by omega]
  generalize hw4 : ((((w.set (p + 3) (keyBase + 4 * n)).set (keyBase + 4 * n) a).set (keyBase + 4 * n + 1) k).set
    (keyBase + 4 * n + 3) (w.mem (p + 3))).set 21474836509 (keyBase + 4 * (n + 1)) = w4
  have hk4 : Keeps w w4 KeyCell := by
    rw [← hw4]
    refine ((((Keeps.set ?_).trans (Keeps.set ?_)).trans (Keeps.set ?_)).trans (Keeps.set ?_)).trans
      (Keeps.set (.inl rfl)) <;>
    · refine .inr ?_; simp only [keyBase] at *; omega
  have hw4' : Words w4 := by
    rw [← hw4]
    exact ((((hw.set (by simp only [keyBase]; omega)).set (by simp only [u256Max] at ha; omega)).set
      hk).set (hw _)).set (by simp only [keyBase]; omega)
  have hj4 : w4.mem jourLen = w.mem jourLen := hk4.2.2 _ (by
    simp only [KeyCell, keyBase, keyEnd, jourLen]; omega)
  have hd4 : w4.mem jdatLen = w.mem jdatLen := hk4.2.2 _ (by
    simp only [KeyCell, keyBase, keyEnd, jdatLen]; omega)
  rw [exec_journal_2 (by rw [hd4]; exact hd) (by rw [hj4]; exact hj)]
  kexec []
  obtain ⟨k1, k2, k3, k4⟩ := push_after (w := w) (l := [6, a, k]) hw4' hk4 (by
    simp only [KeyCell, keyBase, keyEnd, jourLen, jdatLen, jourBase]; intro b hb; omega) hd hj (by
    simp only [u256Max] at ha
    intro v hv; simp only [List.mem_cons, List.not_mem_nil, or_false] at hv; omega)
  generalize hw6 : pushEntry w4 [6, a, k] = w6 at *
  have hfin : ∀ x, keyBase ≤ x → x < keyBase + 2 ^ 32 → w6.mem x =
      if x = keyBase + 4 * n + 3 then w.mem (p + 3) else if x = keyBase + 4 * n + 1 then k else
      if x = keyBase + 4 * n then a else
      if x = p + 3 then keyBase + 4 * n else w.mem x := by
    intro x hx hx'
    rw [k4 x (by simp only [keyBase, jourBase, jourLen, jdatLen] at *; omega), ← hw4,
      set_ne (by simp only [keyBase] at *; omega), set_mem, set_mem, set_mem, set_mem]
  have hold : ∀ q ∈ keyBase :: ps, ∀ k, k ≤ 2 → w6.mem (q + k) = w.mem (q + k) := by
    intro q hq k hk
    have hqb := hl.ptr_bound hq
    rw [hfin _ (by omega) (by omega), if_neg (by omega), if_neg (by omega), if_neg (by omega), if_neg]
    intro hE
    have := hl.mem_inj hq hmem (by omega) (by omega) hE
    omega
  have hkey : ∀ q ∈ keyBase :: ps, slotKey w6.mem q = slotKey w.mem q := by
    intro q hq
    have h0 := hold q hq 0 (by omega)
    have h1 := hold q hq 1 (by omega)
    simp only [Nat.add_zero] at h0
    simp only [slotKey, h0, h1]
  have hnew : slotKey w6.mem (keyBase + 4 * n) = a * 2 ^ 256 + k := by
    rw [slotKey, hfin (keyBase + 4 * n) (by omega) (by omega), if_neg (by omega), if_neg (by omega), if_pos rfl,
      hfin (keyBase + 4 * n + 1) (by omega) (by omega), if_neg (by omega), if_pos rfl]
  have hnewa : w6.mem (keyBase + 4 * n) = a := by
    rw [hfin (keyBase + 4 * n) (by omega) (by omega), if_neg (by omega), if_neg (by omega), if_pos rfl]
  have hin : ∀ b j q, j < 2 ^ 256 → f b j = some q → ∃ r ∈ ps, slotKey w.mem r = b * 2 ^ 256 + j ∧ r + 2 = q := by
    intro b j q hj hf
    exact (hc (b * 2 ^ 256 + j) q).1 (by
      show f _ _ = some q
      rw [div_key hj, mod_key hj]; exact hf)
  have hval : ∀ b j q, j < 2 ^ 256 → f b j = some q → w6.mem q = w.mem q := by
    intro b j q hj hf
    obtain ⟨r, hr, -, rfl⟩ := hin b j q hj hf
    exact hold r (List.mem_cons_of_mem _ hr) 2 (by omega)
  obtain ⟨l, r, rfl, hlast, hlo', hhi'⟩ := hl.around hmem (a := a * 2 ^ 256 + k) hlo (.inr h3)
  have hlink : Linked keyBase 3 w6.mem (slotKey w6.mem) (n + 1) (l ++ (keyBase + (3 + 1) * n) :: r) := by
    refine hl.insert hlast (by omega) ?_ ?_ ?_ ?_ ?_ ?_
    · rw [hfin _ (by omega) (by omega), if_neg (by omega), if_neg (by omega), if_neg (by omega), if_pos rfl]
    · rw [hfin _ (by omega) (by omega), if_pos rfl]
    · intro j hj hjp
      rw [hfin _ (by omega) (by omega), if_neg (by omega), if_neg (by omega), if_neg (by omega), if_neg (by omega)]
    · intro q hq; exact hkey q (List.mem_cons_of_mem _ hq)
    · intro q hq; rw [hnew]; exact hlo' q hq
    · intro q hq; rw [hnew]; exact hhi' q hq
  have hne : ∀ q ∈ l ++ r, slotKey w.mem q ≠ a * 2 ^ 256 + k := by
    intro q hq
    rcases List.mem_append.1 hq with hq | hq
    · have := hlo' q hq; omega
    · have := hhi' q hq; omega
  refine .ret ⟨?_, rfl, k1, k2, k3, hval, _, hlink, ?_, ?_, ?_, ?_⟩
  · have := hc.get_none hne
    simp only [div_key hk, mod_key hk] at this
    exact this
  · rw [k4 _ (by decide), ← hw4, set_same]
  · rw [show keyBase = keyBase + 0 from rfl, hold keyBase (by simp) 0 (by omega)]; exact hb
  · intro q hq
    rcases List.mem_append.1 hq with hq | hq
    · rw [show q = q + 0 from rfl, hold q (by simp [hq]) 0 (by omega)]; exact hlt q (by simp [hq])
    · rcases List.mem_cons.1 hq with rfl | hq
      · rw [hnewa]; exact ha
      · rw [show q = q + 0 from rfl, hold q (by simp [hq]) 0 (by omega)]; exact hlt q (by simp [hq])
  · have := Content.insert (key' := slotKey w6.mem) (val' := fun q => q + 2)
      (x := keyBase + 4 * n) hc ?_ ?_ ?_
    · rw [hnew, upd_key hk] at this; exact this
    · intro q hq; rw [hnew]; exact hne q hq
    · intro q hq; exact hkey q (List.mem_cons_of_mem _ hq)
    · intro q hq; rfl

/-- `insert_accessed_storage_keys`, for every hint of the prover that is not below the list. -/
theorem run_insert_key (hP : P.Has accessCode) (hw : Words w)
    (h : KeysAre w n ps f) {a k : Nat} (ha : a < u256Max) (hk : k < 2 ^ 256)
    (hroom : 4 * (n + 1) ≤ 2 ^ 32)
    (hd : w.mem jdatLen + 3 ≤ 2 ^ 32) (hj : w.mem jourLen < 2 ^ 32)
    (hlow : keyBase ≤ 4 * w.inp 0) :
    Returns P (KeyHint w ps a k) (.goto (P.addr "insert_accessed_storage_keys") (a :: k :: ret :: S) w) ret
      fun s w' => (∃ q, f a k = some q ∧ s = 0 :: q :: S ∧ w' = w.next) ∨
        (f a k = none ∧ s = 1 :: (keyBase + 4 * n + 2) :: S ∧ Words w' ∧ Logged w w' [6, a, k] ∧
          Keeps w.next w' (fun b => KeyCell b ∨ JourCell w 3 b) ∧
          (∀ b j q, j < 2 ^ 256 → f b j = some q → w'.mem q = w.mem q) ∧
          ∃ ps', KeysAre w' (n + 1) ps' (upd2 f a k (some (keyBase + 4 * n + 2)))) := by
  have hfull := h
  obtain ⟨hl, hn, hb, hlt, hc⟩ := h
  have hr := hl.room
  have hwn : Words w.next := hw
  have hH : KeyHint w ps a k → 4 * w.inp 0 ∈ keyBase :: ps ∧
    (4 * w.inp 0 = keyBase ∨ slotKey w.mem (4 * w.inp 0) ≤ a * 2 ^ 256 + k) ∧
    a * 2 ^ 256 + k < slotKey w.mem (w.mem (4 * w.inp 0 + 3)) := id
  generalize KeyHint w ps a k = H at hH ⊢
  renter hP.accessLists in accessListsCode
  kexec [b_insert_accessed_storage_keys, exec_input']
  rw [valid_key (w := w.next) hn (by omega)]
  split
  rotate_left
  · exact .of (reach_panic' hP) (.panic fun h => by have := hl.ptr_bound (hH h).1; omega)
  rename_i hval
  have hcase := hl.cases (i := w.inp 0 - keyBase / 4) (by simp only [keyBase] at *; omega)
  rw [show keyBase + (3 + 1) * (w.inp 0 - keyBase / 4) = 4 * w.inp 0 by
    simp only [keyBase] at *; omega] at hcase
  have hbd : keyBase ≤ 4 * w.inp 0 ∧ 4 * w.inp 0 + 3 < keyBase + 4 * n := by
    simp only [keyBase] at *; omega
  have hnew : ∀ x, (4 * w.inp 0 = keyBase ∨ slotKey w.mem (4 * w.inp 0) < a * 2 ^ 256 + k) →
      Returns P H (.goto (P.addr "insert_storage_key") (x :: 4 * w.inp 0 :: a :: k :: ret :: S) w.next) ret
      fun s w' => (∃ q, f a k = some q ∧ s = 0 :: q :: S ∧ w' = w.next) ∨
        (f a k = none ∧ s = 1 :: (keyBase + 4 * n + 2) :: S ∧ Words w' ∧ Logged w w' [6, a, k] ∧
          Keeps w.next w' (fun b => KeyCell b ∨ JourCell w 3 b) ∧
          (∀ b j q, j < 2 ^ 256 → f b j = some q → w'.mem q = w.mem q) ∧
          ∃ ps', KeysAre w' (n + 1) ps' (upd2 f a k (some (keyBase + 4 * n + 2)))) :=
    fun x hx => (run_insert_new_key (w := w.next) hP hwn hfull ha hk hroom hd hj hbd hcase hx).mono
      (fun h => ⟨(hH h).1, (hH h).2.2⟩) fun s w' h => Or.inr h
  generalize hp : 4 * w.inp 0 = p at *
  kexec []
  rw [exec_mload_at (by simp only [keyBase] at *; omega)]
  kexec [m_eq_const, m_assert_eq0, m_increment, m_add_const, flag_or weq_le wgt_le, next_mem]
  split
  rotate_left
  · rename_i h1
    refine hnew _ ?_
    rw [slotKey, key_lt (hw _) hk]
    simp only [keyBase] at *; omega
  rename_i h1
  split
  rotate_left
  · rename_i h2
    rw [wsub_eq_zero (by simp only [u256Max] at ha; omega) (hw _)] at h2
    refine .of (reach_panic' hP) (.panic fun h => ?_)
    have h3 : keyBase ≠ p := h1.1
    have := (hH h).2.1.resolve_left fun hE => h3 hE.symm
    rw [slotKey] at this; omega
  rename_i h2
  rw [wsub_eq_zero (by simp only [u256Max] at ha; omega) (hw _)] at h2
  rw [wadd_small (by simp only [keyBase] at *; omega), exec_mload_at (by simp only [keyBase] at *; omega), Nat.add_comm 1]
  kexec [next_mem]
  split
  rotate_left
  · rename_i h3
    refine hnew _ (.inr ?_)
    rw [slotKey, key_lt (hw _) hk]
    omega
  rename_i h3
  split
  rotate_left
  · rename_i h4
    rw [wsub_eq_zero hk (hw _)] at h4
    refine .of (reach_panic' hP) (.panic fun h => ?_)
    have h5 : keyBase ≠ p := h1.1
    have := (hH h).2.1.resolve_left fun hE => h5 hE.symm
    rw [slotKey] at this; omega
  rename_i h4
  rw [wsub_eq_zero hk (hw _)] at h4
  rw [wadd_small (by simp only [keyBase] at *; omega), exec_mload_at (by simp only [keyBase] at *; omega)]
  kexec [m_jump_neq_const]
  split
  · rename_i h5
    rw [next_mem, wsub_eq_zero (by omega) (hw _), Nat.add_comm] at h5
    exact .panic fun h => hl.next_ne_max (hH h).1 h5.symm
  rename_i h5
  rw [next_mem, wsub_eq_zero (by omega) (hw _), Nat.add_comm] at h5
  have hmem : p ∈ ps := by
    rcases hcase with hm | hm
    · rcases List.mem_cons.1 hm with hm | hm
      · exact absurd hm.symm h1.1
      · exact hm
    · exact absurd hm.symm h5
  renter hP.accessLists in accessListsCode
  kexec [b_storage_key_found, m_add_const]
  have hfx := hc.get hmem
  simp only [slotKey, ← h2, ← h4, div_key hk, mod_key hk] at hfx
  exact .ret (.inl ⟨_, hfx, by rw [wadd_small (by simp only [keyBase] at *; omega), Nat.add_comm], rfl⟩)

/-- `remove_accessed_storage_keys`, for every hint of the prover that is not below the list. -/
theorem run_remove_key (hP : P.Has accessCode) (hw : Words w)
    (h : KeysAre w n ps f) {a k : Nat} (ha : a < u256Max) (hk : k < 2 ^ 256)
    (hlow : keyBase ≤ 4 * w.inp 0) :
    Returns P (KeyPred w ps a k) (.goto (P.addr "remove_accessed_storage_keys") (a :: k :: ret :: S) w) ret
      fun s w' => s = S ∧ Keeps w.next w' KeyCell ∧ Words w' ∧
        (∃ q, f a k = some q) ∧ (∀ b j q, j < 2 ^ 256 → f b j = some q → w'.mem q = w.mem q) ∧
        ∃ ps', KeysAre w' n ps' (upd2 f a k none) := by
  obtain ⟨hl, hn, hb, hlt, hc⟩ := h
  have hr := hl.room
  have hwn : Words w.next := hw
  have hH : KeyPred w ps a k → 4 * w.inp 0 ∈ keyBase :: ps ∧
    w.mem (w.mem (4 * w.inp 0 + 3)) = a ∧ w.mem (w.mem (4 * w.inp 0 + 3) + 1) = k := id
  generalize KeyPred w ps a k = H at hH ⊢
  renter hP.accessLists in accessListsCode
  kexec [b_remove_accessed_storage_keys, exec_input']
  rw [valid_key (w := w.next) hn (by omega)]
  split
  rotate_left
  · exact .of (reach_panic' hP) (.panic fun h => by have := hl.ptr_bound (hH h).1; omega)
  rename_i hval
  have hcase := hl.cases (i := w.inp 0 - keyBase / 4) (by simp only [keyBase] at *; omega)
  rw [show keyBase + (3 + 1) * (w.inp 0 - keyBase / 4) = 4 * w.inp 0 by
    simp only [keyBase] at *; omega] at hcase
  have hbd : keyBase ≤ 4 * w.inp 0 ∧ 4 * w.inp 0 + 3 < keyBase + 4 * n := by
    simp only [keyBase] at *; omega
  generalize hp : 4 * w.inp 0 = p at *
  kexec [m_increment, m_add_const]
  rw [wadd_small (by simp only [keyBase] at *; omega), exec_mload_at (by simp only [keyBase] at *; omega),
    Nat.add_comm 3, next_mem]
  kexec []
  rcases hcase with hmem | hdead
  rotate_left
  · rw [hdead, show wadd 1 u256Max = 0 by decide, exec_mload_at (by omega)]
    kexec []
    rw [exec_mload_bad (by decide)]; exact .stuck fun h => hl.next_ne_max (hH h).1 hdead
  have hnm := hl.next_mem hmem
  have hnb := hl.ptr_bound hnm
  have hpb := hl.ptr_bound hmem
  rw [wadd_small (by simp only [keyBase] at *; omega), exec_mload_at (by simp only [keyBase] at *; omega), Nat.add_comm 1]
  kexec []
  rw [exec_mload_at (by simp only [keyBase] at *; omega)]
  kexec [m_assert_nonzero0, next_mem]
  have hflag : ∀ x y z t : Nat, wmul (weq x y) (weq z t) ≠ 0 ↔ x = y ∧ z = t := by
    intro x y z t
    rw [Ne, flag_and weq_le weq_le]; simp only [weq]; repeat' split
    all_goals simp_all
  simp only [hflag]
  split
  rotate_left
  · rename_i h1
    exact .of (reach_panic' hP) (.panic fun h => h1 ⟨(hH h).2.1.symm, (hH h).2.2.symm⟩)
  rename_i h1
  obtain ⟨h1, h2⟩ := h1
  have hx : w.mem (p + 3) ∈ ps := by
    rcases List.mem_cons.1 hnm with hm | hm
    · rw [hm, hb] at h1; exact absurd h1 (by omega)
    · exact hm
  generalize hxe : w.mem (p + 3) = x at *
  obtain ⟨hpx, l, r, rfl, hlast⟩ := hl.split_next hmem hxe hx
  rw [wadd_small (by simp only [keyBase] at *; omega), exec_mload_at (by simp only [keyBase] at *; omega)]
  kexec [m_mstore_u256_max]
  rw [exec_mstore_at (by simp only [keyBase] at *; omega)]
  rw [exec_mstore_at (by simp only [keyBase] at *; omega), Nat.add_comm 3, next_mem]
  kexec [m_pop2, rep]
  have hxm' := List.mem_cons_of_mem keyBase hx
  have hne : p + 3 ≠ x + 3 := by omega
  generalize hw2 : (w.next.set (x + 3) _).set (p + 3) (w.mem (x + 3)) = w2
  have hold : ∀ b, b ≠ p + 3 → b ≠ x + 3 → w2.mem b = w.mem b := by
    intro b hb1 hb2
    rw [← hw2, set_ne hb1, set_ne hb2]; rfl
  have hold' : ∀ q ∈ keyBase :: (l ++ x :: r), ∀ k, k ≤ 2 → w2.mem (q + k) = w.mem (q + k) := by
    intro q hq k hk
    refine hold _ (fun hE => ?_) fun hE => ?_
    · have := hl.mem_inj hq hmem (by omega) (by omega) hE; omega
    · have := hl.mem_inj hq hxm' (by omega) (by omega) hE; omega
  have hkey : ∀ q ∈ keyBase :: (l ++ x :: r), slotKey w2.mem q = slotKey w.mem q := by
    intro q hq
    have h0 := hold' q hq 0 (by omega)
    have h1 := hold' q hq 1 (by omega)
    simp only [Nat.add_zero] at h0
    simp only [slotKey, h0, h1]
  have hsub : ∀ q ∈ l ++ r, q ∈ l ++ x :: r := by
    intro q hq; rcases List.mem_append.1 hq with hq | hq <;> simp [hq]
  have hfx := hc.get hx
  simp only [slotKey, ← h1, ← h2, div_key hk, mod_key hk] at hfx
  refine .ret ⟨rfl, ?_, ?_, ⟨_, hfx⟩, ?_, l ++ r, ?_, ?_, ?_, ?_, ?_⟩
  · rw [← hw2]
    refine (Keeps.set ?_).trans (Keeps.set ?_) <;>
    · refine .inr ?_; simp only [keyBase] at *; omega
  · rw [← hw2]; exact (hwn.set (by omega)).set (hw _)
  · intro b j q hj hf
    obtain ⟨r, hr, -, rfl⟩ := (hc (b * 2 ^ 256 + j) q).1 (by
      show f _ _ = some q
      rw [div_key hj, mod_key hj]; exact hf)
    exact hold' r (List.mem_cons_of_mem _ hr) 2 (by omega)
  · refine hl.remove hlast ?_ ?_ ?_ ?_
    · rw [← hw2, set_same]
    · rw [← hw2, set_ne hne.symm, set_same]
    · intro j hj hjp hjx
      exact hold _ (by omega) (by omega)
    · intro q hq; exact hkey q (List.mem_cons_of_mem _ (hsub q hq))
  · rw [hold _ (by simp only [keyBase, keyEnd] at *; omega) (by simp only [keyBase, keyEnd] at *; omega)]; exact hn
  · rw [show keyBase = keyBase + 0 from rfl, hold' keyBase (by simp) 0 (by omega)]; exact hb
  · intro q hq
    rw [show q = q + 0 from rfl, hold' q (List.mem_cons_of_mem _ (hsub q hq)) 0 (by omega)]; exact hlt q (hsub q hq)
  · rw [← upd_key hk, h1, h2]
    refine hc.remove ?_ ?_ ?_
    · intro q hq hE
      have := hl.key_inj (hsub q hq) hx hE
      subst this
      have hnd := (List.nodup_cons.1 hl.nodup).2
      rw [List.nodup_append] at hnd
      rcases List.mem_append.1 hq with hq | hq
      · exact hnd.2.2 q hq q (by simp) rfl
      · exact (List.nodup_cons.1 hnd.2.1).1 hq
    · intro q hq; exact hkey q (List.mem_cons_of_mem _ (hsub q hq))
    · intro q hq; rfl

end Verif.Kasm
