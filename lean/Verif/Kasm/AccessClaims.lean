import Verif.Kasm.AccessKeys
import Verif.Kasm.ListClaims

/-! Property C105: the kernel's record of accessed addresses and storage keys (EIP-2929), on which
the price of an access and the original value of a storage slot depend. -/

namespace Verif.Kasm

variable {P : Prog} {S : List Nat} {w : World} {ret n m : Nat} {ps qs : List Nat}
  {A : Nat → Prop} {g : Nat → Nat → Option Nat}

/-! ### The beginning -/

/-- `init_access_lists`: afterwards both lists are empty. -/
theorem run_init_access (hP : P.Has accessCode) (hw : Words w) :
    ∃ w', Reaches P (.goto (P.addr "init_access_lists") (ret :: S) w) (.goto ret S w') ∧ Words w' ∧
      AddrsAre w' 1 [] (fun _ => False) ∧ KeysAre w' 1 [] (fun _ _ => none) ∧
      w'.mem 0x500000023 = 0 ∧
      Keeps w.next w' (fun a => a = 0x500000023 ∨ a = addrEnd ∨ a = keyEnd ∨
        (addrBase ≤ a ∧ a < addrBase + 2) ∨ (keyBase ≤ a ∧ a < keyBase + 4)) := by
  refine ⟨(((((((w.set 0x500000023 0).set addrBase u256Max).set (addrBase + 1) addrBase).set addrEnd
    (addrBase + 2)).set keyBase u256Max).set (keyBase + 3) keyBase).set keyEnd (keyBase + 4)).next, ?_, ?_, ?_, ?_, ?_, ?_⟩
  · enter hP.accessLists in accessListsCode
    kexec [b_init_access_lists, m_mstore_global_metadata]
    rw [exec_mstore_at (by omega)]
    kexec [m_mstore_u256_max, m_increment, m_add_const]
    rw [exec_mstore_at (by omega)]
    kexec []
    rw [show wadd 1 85899345920 = addrBase + 1 by decide, exec_mstore_at (by decide)]
    kexec []
    rw [show wadd 1 (addrBase + 1) = addrBase + 2 by decide, exec_mstore_at (by decide)]
    kexec []
    rw [exec_mstore_at (by omega)]
    kexec []
    rw [show wadd 3 90194313216 = keyBase + 3 by decide, exec_mstore_at (by decide)]
    kexec []
    rw [show wadd 1 (keyBase + 3) = keyBase + 4 by decide, exec_mstore_at (by decide)]
    kexec [exec_input']
    exact .refl _
  · intro a
    exact (((((((hw.set (by omega)).set (by decide)).set (by decide)).set (by decide)).set (by decide)).set
      (by decide)).set (by decide)) a
  · refine ⟨⟨by omega, by omega, by decide, ?_, by simp, fun i h0 h1 _ => by omega, by simp⟩, ?_, ?_, by simp,
      by simp⟩
    · show _ = addrBase
      simp only [next_mem]
      rw [set_ne (by decide), set_ne (by decide), set_ne (by decide), set_ne (by decide), set_same]
    · simp only [next_mem]
      rw [set_ne (by decide), set_ne (by decide), set_ne (by decide), set_same]
    · simp only [next_mem]
      rw [set_ne (by decide), set_ne (by decide), set_ne (by decide), set_ne (by decide), set_ne (by decide), set_same]
  · refine ⟨⟨by omega, by omega, by decide, ?_, by simp, fun i h0 h1 _ => by omega, by simp⟩, ?_, ?_, by simp,
      fun a v => by simp⟩
    · show _ = keyBase
      simp only [next_mem]
      rw [set_ne (by decide), set_same]
    · simp only [next_mem]
      rw [set_same]
    · simp only [next_mem]
      rw [set_ne (by decide), set_ne (by decide), set_same]
  · simp only [next_mem]
    rw [set_ne (by decide), set_ne (by decide), set_ne (by decide), set_ne (by decide), set_ne (by decide),
      set_ne (by decide), set_same]
  · refine ⟨rfl, rfl, fun a ha => ?_⟩
    simp only [next_mem]
    simp only [addrEnd, keyEnd, addrBase, keyBase] at ha ⊢
    rw [set_ne (by omega), set_ne (by omega), set_ne (by omega), set_ne (by omega), set_ne (by omega),
      set_ne (by omega), set_ne (by omega)]

/-! ### A hint below the list -/

/-- With a hint below the list, any cell that holds the address makes it count as accessed. -/
theorem run_insert_addr_below (hP : P.Has accessCode) (hw : Words w) (h : AddrsAre w n ps A) {a : Nat}
    (hlow : 2 * w.inp 0 < addrBase) (h1 : w.mem (2 * w.inp 0) = a)
    (h2 : w.mem (2 * w.inp 0 + 1) ≠ u256Max) :
    Reaches P (.goto (P.addr "insert_accessed_addresses") (a :: ret :: S) w) (.goto ret (0 :: S) w.next) := by
  obtain ⟨hl, hn, hb, hlt, hc⟩ := h
  have hr := hl.room
  have hpos := hl.pos
  enter hP.accessLists in accessListsCode
  kexec [b_insert_accessed_addresses, exec_input']
  rw [valid_addr (w := w.next) hn (by omega), if_pos (by omega)]
  generalize hp : 2 * w.inp 0 = p at *
  kexec []
  rw [exec_mload_at (by simp only [addrBase] at *; omega)]
  kexec [m_eq_const, m_assert_eq0, m_increment, m_add_const, flag_or wgt_le weq_le, next_mem]
  rw [if_pos (by simp only [addrBase] at *; omega), if_pos (by rw [h1, wsub_eq_zero (h1 ▸ hw _) (h1 ▸ hw _)]),
    wadd_small (by simp only [addrBase] at *; omega), exec_mload_at (by simp only [addrBase] at *; omega)]
  kexec [m_jump_neq_const]
  rw [if_neg (by
    rw [next_mem, wsub_eq_zero (by omega) (hw _), Nat.add_comm]; simp only [u256Max] at h2; omega)]
  enter hP.accessLists in accessListsCode
  kexec [b_address_found]
  exact .refl _

/-- The same for storage keys. -/
theorem run_insert_key_below (hP : P.Has accessCode) (hw : Words w) (h : KeysAre w n ps g) {a k : Nat}
    (hlow : 4 * w.inp 0 < keyBase) (h1 : w.mem (4 * w.inp 0) = a) (h1' : w.mem (4 * w.inp 0 + 1) = k)
    (h2 : w.mem (4 * w.inp 0 + 3) ≠ u256Max) :
    Reaches P (.goto (P.addr "insert_accessed_storage_keys") (a :: k :: ret :: S) w)
      (.goto ret (0 :: (4 * w.inp 0 + 2) :: S) w.next) := by
  obtain ⟨hl, hn, hb, hlt, hc⟩ := h
  have hr := hl.room
  have hpos := hl.pos
  enter hP.accessLists in accessListsCode
  kexec [b_insert_accessed_storage_keys, exec_input']
  rw [valid_key (w := w.next) hn (by omega), if_pos (by omega)]
  generalize hp : 4 * w.inp 0 = p at *
  kexec []
  rw [exec_mload_at (by simp only [keyBase] at *; omega)]
  kexec [m_eq_const, m_assert_eq0, m_increment, m_add_const, flag_or weq_le wgt_le, next_mem]
  rw [if_pos (by simp only [keyBase] at *; omega), if_pos (by rw [h1, wsub_eq_zero (h1 ▸ hw _) (h1 ▸ hw _)]),
    wadd_small (by simp only [keyBase] at *; omega), exec_mload_at (by simp only [keyBase] at *; omega), Nat.add_comm 1,
    next_mem, h1']
  kexec []
  rw [if_pos (Nat.le_refl _), if_pos (by rw [wsub_eq_zero (h1' ▸ hw _) (h1' ▸ hw _)]),
    wadd_small (by simp only [keyBase] at *; omega), exec_mload_at (by simp only [keyBase] at *; omega)]
  kexec [m_jump_neq_const]
  rw [if_neg (by
    rw [next_mem, wsub_eq_zero (by omega) (hw _), Nat.add_comm]; simp only [u256Max] at h2; omega)]
  enter hP.accessLists in accessListsCode
  kexec [b_storage_key_found, m_add_const]
  rw [wadd_small (by simp only [keyBase] at *; omega), Nat.add_comm]
  exact .refl _

/-! ### The lists do not overlap -/

theorem AddrsAre.congr {w' : World} (h : AddrsAre w n ps A) (he : w'.mem addrEnd = w.mem addrEnd)
    (hm : ∀ a, addrBase ≤ a → a < addrBase + 2 ^ 32 → w'.mem a = w.mem a) : AddrsAre w' n ps A := by
  obtain ⟨hl, h1, hb, hlt, hc⟩ := h
  have hr := hl.room
  have hq : ∀ q ∈ ps, w'.mem q = w.mem q := by
    intro q hq
    have := hl.ptr_bound (List.mem_cons_of_mem _ hq)
    exact hm _ (by omega) (by omega)
  refine ⟨hl.congr (fun i hi => hm _ (by omega) (by omega)) hq, by rw [he, h1],
    by rw [hm addrBase (by omega) (by omega), hb], fun q h => by rw [hq q h]; exact hlt q h, fun a => ?_⟩
  rw [hc a]
  constructor
  · rintro ⟨p, hp, rfl⟩; exact ⟨p, hp, hq p hp⟩
  · rintro ⟨p, hp, rfl⟩; exact ⟨p, hp, (hq p hp).symm⟩

theorem KeysAre.congr {w' : World} (h : KeysAre w n ps g) (he : w'.mem keyEnd = w.mem keyEnd)
    (hm : ∀ a, keyBase ≤ a → a < keyBase + 2 ^ 32 → w'.mem a = w.mem a) : KeysAre w' n ps g := by
  obtain ⟨hl, h1, hb, hlt, hc⟩ := h
  have hr := hl.room
  have hq : ∀ q ∈ ps, ∀ k, k ≤ 3 → w'.mem (q + k) = w.mem (q + k) := by
    intro q hq k hk
    have := hl.ptr_bound (List.mem_cons_of_mem _ hq)
    exact hm _ (by omega) (by omega)
  have hk : ∀ q ∈ ps, slotKey w'.mem q = slotKey w.mem q := by
    intro q h
    have h0 := hq q h 0 (by omega)
    rw [Nat.add_zero] at h0
    rw [slotKey, slotKey, h0, hq q h 1 (by omega)]
  refine ⟨hl.congr (fun i hi => hm _ (by omega) (by omega)) hk, by rw [he, h1],
    by rw [hm keyBase (by omega) (by omega), hb], fun q h => ?_, hc.congr hk fun _ _ => rfl⟩
  have h0 := hq q h 0 (by omega)
  rw [Nat.add_zero] at h0
  rw [h0]; exact hlt q h

/-! ### C105 -/

/-- What marking address `a` as accessed must do: report 0 and change nothing if it was accessed
before; otherwise report 1, make it accessed, and write one entry (0, `a`) to the journal. -/
def MarksAddr (w : World) (A : Nat → Prop) (g : Nat → Nat → Option Nat) (S : List Nat) (a : Nat)
    (s : List Nat) (w' : World) : Prop :=
  (A a ∧ s = 0 :: S ∧ w' = w.next) ∨
    (¬ A a ∧ s = 1 :: S ∧ Words w' ∧ Logged w w' [0, a] ∧
      Keeps w.next w' (fun b => AddrCell b ∨ JourCell w 2 b) ∧
      (∃ n' ps', AddrsAre w' n' ps' (fun b => b = a ∨ A b)) ∧ ∃ m' qs', KeysAre w' m' qs' g)

/-- What marking key `k` of address `a` as accessed must do: report 0 and the place of its value
and change nothing if it was accessed before; otherwise report 1 and a place for its value that no
other key has, make it accessed, keep the values of the other keys, and write one entry
(6, `a`, `k`) to the journal. -/
def MarksKey (w : World) (A : Nat → Prop) (g : Nat → Nat → Option Nat) (S : List Nat) (a k : Nat)
    (s : List Nat) (w' : World) : Prop :=
  (∃ q, g a k = some q ∧ s = 0 :: q :: S ∧ w' = w.next) ∨
    (g a k = none ∧ ∃ q, s = 1 :: q :: S ∧ (∀ b j, j < 2 ^ 256 → g b j ≠ some q) ∧ Words w' ∧ Logged w w' [6, a, k] ∧
      Keeps w.next w' (fun b => KeyCell b ∨ JourCell w 3 b) ∧
      (∀ b j q, j < 2 ^ 256 → g b j = some q → w'.mem q = w.mem q) ∧
      (∃ n' ps', AddrsAre w' n' ps' A) ∧ ∃ m' qs', KeysAre w' m' qs' (upd2 g a k (some q)))

/-- C105 in full: whatever the prover supplies, marking an address or a storage key as accessed,
and unmarking it, does what it must or does not come back; with the right hint it comes back. -/
def C105_statement : Prop :=
  ∀ (P : Prog) (S : List Nat) (w : World) (ret n m : Nat) (ps qs : List Nat)
    (A : Nat → Prop) (g : Nat → Nat → Option Nat), P.Has accessCode → Words w →
    AddrsAre w n ps A → KeysAre w m qs g → 2 * (n + 1) ≤ 2 ^ 32 → 4 * (m + 1) ≤ 2 ^ 32 →
    w.mem jdatLen + 3 ≤ 2 ^ 32 → w.mem jourLen < 2 ^ 32 →
    (∀ a, a < u256Max →
      Returns P (AddrHint w ps a) (.goto (P.addr "insert_accessed_addresses") (a :: ret :: S) w) ret
        (MarksAddr w A g S a)) ∧
    (∀ a k, a < u256Max → k < 2 ^ 256 →
      Returns P (KeyHint w qs a k) (.goto (P.addr "insert_accessed_storage_keys") (a :: k :: ret :: S) w) ret
        (MarksKey w A g S a k)) ∧
    (∀ a, a < u256Max →
      Returns P (AddrPred w ps a) (.goto (P.addr "remove_accessed_addresses") (a :: ret :: S) w) ret
        fun s w' => s = S ∧ Keeps w.next w' AddrCell ∧ Words w' ∧ A a ∧
          (∃ n' ps', AddrsAre w' n' ps' (fun b => b ≠ a ∧ A b)) ∧ ∃ m' qs', KeysAre w' m' qs' g) ∧
    (∀ a k, a < u256Max → k < 2 ^ 256 →
      Returns P (KeyPred w qs a k) (.goto (P.addr "remove_accessed_storage_keys") (a :: k :: ret :: S) w) ret
        fun s w' => s = S ∧ Keeps w.next w' KeyCell ∧ Words w' ∧ (∃ q, g a k = some q) ∧
          (∀ b j q, j < 2 ^ 256 → g b j = some q → w'.mem q = w.mem q) ∧
          (∃ n' ps', AddrsAre w' n' ps' A) ∧ ∃ m' qs', KeysAre w' m' qs' (upd2 g a k none))

/-- What does hold: all of it for every hint that is not below the list; and both lists are empty
after `init_access_lists`. -/
theorem C105_access_partial (hP : P.Has accessCode) (hw : Words w) :
    (∃ w', Reaches P (.goto (P.addr "init_access_lists") (ret :: S) w) (.goto ret S w') ∧ Words w' ∧
      AddrsAre w' 1 [] (fun _ => False) ∧ KeysAre w' 1 [] (fun _ _ => none)) ∧
    (AddrsAre w n ps A → KeysAre w m qs g → 2 * (n + 1) ≤ 2 ^ 32 → 4 * (m + 1) ≤ 2 ^ 32 →
    w.mem jdatLen + 3 ≤ 2 ^ 32 → w.mem jourLen < 2 ^ 32 →
    (∀ a, a < u256Max → addrBase ≤ 2 * w.inp 0 →
      Returns P (AddrHint w ps a) (.goto (P.addr "insert_accessed_addresses") (a :: ret :: S) w) ret
        (MarksAddr w A g S a)) ∧
    (∀ a k, a < u256Max → k < 2 ^ 256 → keyBase ≤ 4 * w.inp 0 →
      Returns P (KeyHint w qs a k) (.goto (P.addr "insert_accessed_storage_keys") (a :: k :: ret :: S) w) ret
        (MarksKey w A g S a k)) ∧
    (∀ a, a < u256Max → addrBase ≤ 2 * w.inp 0 →
      Returns P (AddrPred w ps a) (.goto (P.addr "remove_accessed_addresses") (a :: ret :: S) w) ret
        fun s w' => s = S ∧ Keeps w.next w' AddrCell ∧ Words w' ∧ A a ∧
          (∃ n' ps', AddrsAre w' n' ps' (fun b => b ≠ a ∧ A b)) ∧ ∃ m' qs', KeysAre w' m' qs' g) ∧
    (∀ a k, a < u256Max → k < 2 ^ 256 → keyBase ≤ 4 * w.inp 0 →
      Returns P (KeyPred w qs a k) (.goto (P.addr "remove_accessed_storage_keys") (a :: k :: ret :: S) w) ret
        fun s w' => s = S ∧ Keeps w.next w' KeyCell ∧ Words w' ∧ (∃ q, g a k = some q) ∧
          (∀ b j q, j < 2 ^ 256 → g b j = some q → w'.mem q = w.mem q) ∧
          (∃ n' ps', AddrsAre w' n' ps' A) ∧ ∃ m' qs', KeysAre w' m' qs' (upd2 g a k none))) := by
  refine ⟨?_, fun ha hk hr1 hr2 hd hj => ⟨?_, ?_, ?_, ?_⟩⟩
  · obtain ⟨w', h1, h2, h3, h4, -⟩ := run_init_access (ret := ret) (S := S) hP hw
    exact ⟨w', h1, h2, h3, h4⟩
  · intro a hlt hlow
    refine (run_insert_addr hP hw ha hlt hr1 (by omega) hj hlow).mono id ?_
    rintro s w' (h | ⟨h1, h2, h3, h4, h5, ps', h6⟩)
    · exact .inl h
    · refine .inr ⟨h1, h2, h3, h4, h5, ⟨_, _, h6⟩, m, qs, hk.congr (h5.2.2 _ ?_) fun b hb hb' => h5.2.2 b ?_⟩
      · simp only [AddrCell, JourCell, keyEnd, addrEnd, addrBase, jourLen, jdatLen, jourBase, jdatBase] at *; omega
      · simp only [AddrCell, JourCell, keyBase, addrEnd, addrBase, jourLen, jdatLen, jourBase, jdatBase] at *; omega
  · intro a k hlt hk2 hlow
    have hfr : ∀ b j, j < 2 ^ 256 → g b j ≠ some (keyBase + 4 * m + 2) := by
      intro b j hj hg
      obtain ⟨hl, _, _, _, hc⟩ := hk
      obtain ⟨r, hr, -, he⟩ := (hc (b * 2 ^ 256 + j) _).1 (by
        show g _ _ = some _
        rw [div_key hj, mod_key hj]; exact hg)
      have := hl.ptr_bound (List.mem_cons_of_mem _ hr)
      simp only at he
      omega
    refine (run_insert_key hP hw hk hlt hk2 hr2 hd hj hlow).mono id ?_
    rintro s w' (h | ⟨h1, h2, h3, h4, h5, h6, ps', h7⟩)
    · exact .inl h
    · refine .inr ⟨h1, _, h2, hfr, h3, h4, h5, h6, ⟨n, ps, ha.congr (h5.2.2 _ ?_) fun b hb hb' => h5.2.2 b ?_⟩, _, _, h7⟩
      · simp only [KeyCell, JourCell, keyEnd, addrEnd, keyBase, jourLen, jdatLen, jourBase, jdatBase] at *; omega
      · simp only [KeyCell, JourCell, keyEnd, keyBase, addrBase, jourLen, jdatLen, jourBase, jdatBase] at *; omega
  · intro a hlt hlow
    refine (run_remove_addr hP hw ha hlt hlow).mono id ?_
    rintro s w' ⟨h1, h5, h3, h4, ps', h6⟩
    refine ⟨h1, h5, h3, h4, ⟨_, _, h6⟩, m, qs, hk.congr (h5.2.2 _ ?_) fun b hb hb' => h5.2.2 b ?_⟩
    · simp only [AddrCell, keyEnd, addrEnd, addrBase]; omega
    · simp only [AddrCell, keyBase, addrEnd, addrBase] at *; omega
  · intro a k hlt hk2 hlow
    refine (run_remove_key hP hw hk hlt hk2 hlow).mono id ?_
    rintro s w' ⟨h1, h5, h3, h4, h6, ps', h7⟩
    refine ⟨h1, h5, h3, h4, h6, ⟨n, ps, ha.congr (h5.2.2 _ ?_) fun b hb hb' => h5.2.2 b ?_⟩, _, _, h7⟩
    · simp only [KeyCell, keyEnd, addrEnd, keyBase]; omega
    · simp only [KeyCell, keyEnd, keyBase, addrBase] at *; omega

/-- There is always a right hint, and it is not below the list. -/
theorem exists_addrHint (ha : AddrsAre w n ps A) {a : Nat} (h : a < u256Max) :
    ∃ i, addrBase ≤ 2 * i ∧ AddrHint { w with inp := fun _ => i } ps a := by
  obtain ⟨hl, _, hb, -⟩ := ha
  obtain ⟨p, hp, h1, h2⟩ := hl.exists_pred (a := a) (by rw [hb]; exact h)
  obtain ⟨j, _, rfl⟩ := hl.ptr_lt hp
  refine ⟨addrBase / 2 + j, by simp only [addrBase]; omega, ?_⟩
  simp only [AddrHint]
  rw [show 2 * (addrBase / 2 + j) = addrBase + (1 + 1) * j by simp only [addrBase]; omega]
  exact ⟨hp, h1, h2⟩

theorem exists_keyHint (hk : KeysAre w m qs g) {a k : Nat} (h : a < u256Max) (hk2 : k < 2 ^ 256) :
    ∃ i, keyBase ≤ 4 * i ∧ KeyHint { w with inp := fun _ => i } qs a k := by
  obtain ⟨hl, _, hb, -⟩ := hk
  obtain ⟨p, hp, h1, h2⟩ := hl.exists_pred (a := a * 2 ^ 256 + k) (by rw [slotKey, hb]; omega)
  obtain ⟨j, _, rfl⟩ := hl.ptr_lt hp
  refine ⟨keyBase / 4 + j, by simp only [keyBase]; omega, ?_⟩
  simp only [KeyHint]
  rw [show 4 * (keyBase / 4 + j) = keyBase + (3 + 1) * j by simp only [keyBase]; omega]
  exact ⟨hp, h1, h2⟩

theorem exists_addrPred (ha : AddrsAre w n ps A) {a : Nat} (h : A a) :
    ∃ i, addrBase ≤ 2 * i ∧ AddrPred { w with inp := fun _ => i } ps a := by
  obtain ⟨hl, _, hb, _, hc⟩ := ha
  obtain ⟨x, hx, h1⟩ := (hc _).1 h
  obtain ⟨p, hp, h2⟩ := hl.exists_before hx
  obtain ⟨j, _, rfl⟩ := hl.ptr_lt hp
  refine ⟨addrBase / 2 + j, by simp only [addrBase]; omega, ?_⟩
  simp only [AddrPred]
  rw [show 2 * (addrBase / 2 + j) = addrBase + (1 + 1) * j by simp only [addrBase]; omega]
  exact ⟨hp, by rw [h2, h1]⟩

theorem exists_keyPred (hw : Words w) (hk : KeysAre w m qs g) {a k q : Nat} (hk2 : k < 2 ^ 256)
    (h : g a k = some q) : ∃ i, keyBase ≤ 4 * i ∧ KeyPred { w with inp := fun _ => i } qs a k := by
  obtain ⟨hl, _, hb, _, hc⟩ := hk
  obtain ⟨x, hx, h1, -⟩ := (hc (a * 2 ^ 256 + k) q).1 (by
    show g _ _ = some _
    rw [div_key hk2, mod_key hk2]; exact h)
  obtain ⟨p, hp, h2⟩ := hl.exists_before hx
  obtain ⟨j, _, rfl⟩ := hl.ptr_lt hp
  refine ⟨keyBase / 4 + j, by simp only [keyBase]; omega, ?_⟩
  simp only [KeyPred]
  rw [show 4 * (keyBase / 4 + j) = keyBase + (3 + 1) * j by simp only [keyBase]; omega]
  rw [slotKey, key_eq (hw _) hk2] at h1
  exact ⟨hp, by rw [h2]; exact h1⟩

/-! ### A small memory for examples -/

/-- A kernel with the code of the access lists, and a place that jumps to itself. -/
def accProg : Prog := Prog.of (("here", [.push (.lab "here"), JUMP]) :: accessCode) (fun _ => 0)

theorem accProg_has : accProg.Has accessCode :=
  (Prog.of_has (("here", [.push (.lab "here"), JUMP]) :: accessCode) (fun _ => 0)
    (by decide +kernel) (by decide +kernel)).mono fun p hp => List.mem_cons_of_mem _ hp

theorem accProg_here (s : List Nat) (w : World) :
    exec accProg (accProg.code (accProg.addr "here")) s w = .goto (accProg.addr "here") s w := by
  have h := Prog.of_has (("here", [.push (.lab "here"), JUMP]) :: accessCode) (fun _ => 0)
    (by decide +kernel) (by decide +kernel) ("here", [.push (.lab "here"), JUMP]) (by simp)
  show exec accProg ((Prog.of _ _).code ((Prog.of _ _).addr "here")) s w = _
  rw [h.1]
  kexec []

/-- The memory of the example: address 5 and its key 6 have been accessed.  In the tries' data,
at position 16, there are the numbers 9 and 7. -/
def accMem (a : Nat) : Nat :=
  if a = addrEnd then addrBase + 4 else if a = keyEnd then keyBase + 8 else
  if a = addrBase then u256Max else if a = addrBase + 1 then addrBase + 2 else
  if a = addrBase + 2 then 5 else if a = addrBase + 3 then addrBase else
  if a = keyBase then u256Max else if a = keyBase + 3 then keyBase + 4 else
  if a = keyBase + 4 then 5 else if a = keyBase + 5 then 6 else if a = keyBase + 6 then 99 else
  if a = keyBase + 7 then keyBase else
  if a = 0xc00000010 then 9 else if a = 0xc00000011 then 7 else 0

/-- The example with `h` as every input. -/
def accWorld (h : Nat) : World where
  ctx := 0
  inp := fun _ => h
  mem := accMem

theorem accWorld_words (h : Nat) : Words (accWorld h) := by
  intro a
  show accMem a < _
  simp only [accMem]
  repeat' apply ite_lt'
  all_goals decide

theorem accWorld_addrs (h : Nat) : AddrsAre (accWorld h) 2 [addrBase + 2] (fun a => a = 5) := by
  refine ⟨⟨by omega, by omega, by decide, ⟨(by decide : accMem (addrBase + 1) = addrBase + 2),
      (by decide : accMem (addrBase + 3) = addrBase)⟩, ?_, ?_, by simp⟩,
    (by decide : accMem addrEnd = addrBase + 4), (by decide : accMem addrBase = u256Max), ?_, ?_⟩
  · intro p hp
    simp only [List.mem_singleton] at hp
    exact ⟨1, by omega, by omega, hp⟩
  · intro i h0 h1 hm
    have : i = 1 := by omega
    subst this
    simp at hm
  · intro p hp
    simp only [List.mem_singleton] at hp
    subst hp; exact (by decide : accMem (addrBase + 2) < u256Max)
  · intro a
    simp only [List.mem_singleton, exists_eq_left]
    rw [show (accWorld h).mem (addrBase + 2) = 5 from (by decide : accMem (addrBase + 2) = 5)]
    exact eq_comm

/-- The keys of the example. -/
def exKeys : Nat → Nat → Option Nat := fun a k => if a = 5 ∧ k = 6 then some (keyBase + 6) else none

theorem accWorld_keys (h : Nat) : KeysAre (accWorld h) 2 [keyBase + 4] exKeys := by
  have k1 : slotKey (accWorld h).mem (keyBase + 4) = 5 * 2 ^ 256 + 6 :=
    (by decide : slotKey accMem (keyBase + 4) = 5 * 2 ^ 256 + 6)
  refine ⟨⟨by omega, by omega, by decide, ⟨(by decide : accMem (keyBase + 3) = keyBase + 4),
      (by decide : accMem (keyBase + 7) = keyBase)⟩, ?_, ?_, by simp⟩,
    (by decide : accMem keyEnd = keyBase + 8), (by decide : accMem keyBase = u256Max), ?_, ?_⟩
  · intro p hp
    simp only [List.mem_singleton] at hp
    exact ⟨1, by omega, by omega, hp⟩
  · intro i h0 h1 hm
    have : i = 1 := by omega
    subst this
    simp at hm
  · intro p hp
    simp only [List.mem_singleton] at hp
    subst hp; exact (by decide : accMem (keyBase + 4) < u256Max)
  · intro a v
    simp only [List.mem_singleton, exists_eq_left, exKeys, k1]
    have d := Nat.div_add_mod a (2 ^ 256)
    constructor
    · intro hh; split at hh
      · rename_i ha; exact ⟨by rw [← d, ha.1, ha.2], Option.some.inj hh⟩
      · cases hh
    · rintro ⟨rfl, rfl⟩; rw [div_key (by omega), mod_key (by omega)]; rfl

/-- C105 in full is false: a hint may name a place below the list, and any memory of the kernel's
context that holds the address there, or the address and the key one after the other, makes them
count as accessed. -/
theorem C105_access_violated :
    (∀ (P : Prog) (S : List Nat) (w : World) (ret n m : Nat) (ps qs : List Nat)
      (A : Nat → Prop) (g : Nat → Nat → Option Nat), P.Has accessCode → Words w →
      (AddrsAre w n ps A → ∀ a, 2 * w.inp 0 < addrBase → w.mem (2 * w.inp 0) = a →
        w.mem (2 * w.inp 0 + 1) ≠ u256Max →
        Reaches P (.goto (P.addr "insert_accessed_addresses") (a :: ret :: S) w) (.goto ret (0 :: S) w.next)) ∧
      (KeysAre w m qs g → ∀ a k, 4 * w.inp 0 < keyBase → w.mem (4 * w.inp 0) = a →
        w.mem (4 * w.inp 0 + 1) = k → w.mem (4 * w.inp 0 + 3) ≠ u256Max →
        Reaches P (.goto (P.addr "insert_accessed_storage_keys") (a :: k :: ret :: S) w)
          (.goto ret (0 :: (4 * w.inp 0 + 2) :: S) w.next))) ∧
    ¬ C105_statement := by
  refine ⟨fun P S w ret n m ps qs A g hP hw => ⟨fun h a h1 h2 h3 => run_insert_addr_below hP hw h h1 h2 h3,
    fun h a k h1 h2 h3 h4 => run_insert_key_below hP hw h h1 h2 h3 h4⟩, fun h => ?_⟩
  have h1 := (h accProg [] (accWorld 0x600000008) (accProg.addr "here") 2 2 _ _ _ _ accProg_has
    (accWorld_words _) (accWorld_addrs _) (accWorld_keys _) (by omega) (by omega) (by decide) (by decide)).1 9 (by decide)
  have h2 := h1.only accProg_here (run_insert_addr_below accProg_has (accWorld_words _) (accWorld_addrs _)
    (by decide) (by decide) (by decide))
  rcases h2 with ⟨h3, -⟩ | ⟨-, h3, -⟩
  · exact absurd h3 (by decide)
  · cases h3

/-- Address 9 has not been accessed, and with the right hint it is added; with a hint into the
tries' data it is not, and counts as accessed. -/
example : (∃ w', Reaches accProg (.goto (accProg.addr "insert_accessed_addresses") [9, 77]
        (accWorld (addrBase / 2 + 1))) (.goto 77 [1] w') ∧
      ∃ n ps, AddrsAre w' n ps (fun a => a = 9 ∨ a = 5)) ∧
    Reaches accProg (.goto (accProg.addr "insert_accessed_addresses") [9, 77] (accWorld 0x600000008))
      (.goto 77 [0] (accWorld 0x600000008).next) := by
  refine ⟨?_, run_insert_addr_below accProg_has (accWorld_words _) (accWorld_addrs _)
    (by decide) (by decide) (by decide)⟩
  have h := ((C105_access_partial (S := []) (ret := 77) accProg_has
    (accWorld_words (addrBase / 2 + 1))).2 (accWorld_addrs _) (accWorld_keys _) (by omega) (by omega) (by decide)
    (by decide)).1 9 (by decide) (by decide)
  obtain ⟨s, w', h1, h2⟩ := h.sure ⟨by simp [accWorld]; decide, by decide, by decide⟩
  rcases h2 with ⟨h3, -⟩ | ⟨-, h3, -, -, -, h4, -⟩
  · exact absurd h3 (by decide)
  · subst h3; exact ⟨w', h1, h4⟩

/-- Key 6 of address 5 has been accessed, and removing it works with the right hint. -/
example : Reaches accProg (.goto (accProg.addr "insert_accessed_storage_keys") [5, 6, 77]
        (accWorld (keyBase / 4 + 1))) (.goto 77 [0, keyBase + 6] (accWorld (keyBase / 4 + 1)).next) ∧
    ∃ w', Reaches accProg (.goto (accProg.addr "remove_accessed_storage_keys") [5, 6, 77]
        (accWorld (keyBase / 4))) (.goto 77 [] w') ∧ ∃ m qs, KeysAre w' m qs (upd2 exKeys 5 6 none) := by
  constructor
  · have h := ((C105_access_partial (S := []) (ret := 77) accProg_has
      (accWorld_words (keyBase / 4 + 1))).2 (accWorld_addrs _) (accWorld_keys _) (by omega) (by omega) (by decide)
      (by decide)).2.1 5 6 (by decide) (by omega) (by decide)
    obtain ⟨s, w', h1, h2⟩ := h.sure ⟨by simp [accWorld]; decide, by decide, by decide⟩
    rcases h2 with ⟨q, h3, rfl, rfl⟩ | ⟨h3, -⟩
    · simp only [exKeys, and_self, if_pos] at h3
      cases h3; exact h1
    · simp [exKeys] at h3
  · have h := ((C105_access_partial (S := []) (ret := 77) accProg_has
      (accWorld_words (keyBase / 4))).2 (accWorld_addrs _) (accWorld_keys _) (by omega) (by omega) (by decide)
      (by decide)).2.2.2 5 6 (by decide) (by omega) (by decide)
    obtain ⟨s, w', h1, rfl, -, -, -, -, -, h2⟩ := h.sure ⟨by simp [accWorld]; decide, by decide, by decide⟩
    exact ⟨w', h1, h2⟩

end Verif.Kasm
