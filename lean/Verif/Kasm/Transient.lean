import Verif.Kasm.DepositClaims
import Verif.Kasm.Code.Transient

/-!
Transient storage (EIP-1153), which the kernel keeps as an array of address, slot and value (`asm/memory/transient_storage.asm`).
-/

namespace Verif.Kasm

variable {P : Prog} {S : List Nat} {w w' : World} {ret a k i j L K v slot : Nat} {js : List (List Nat)}

/-- `@SEGMENT_TRANSIENT_STORAGE` and the cell of `@GLOBAL_METADATA_TRANSIENT_STORAGE_LEN`. -/
abbrev tranBase : Nat := 0x2400000000
abbrev tranLen : Nat := 0x500000033

/-- At `x` the search for the slot `k` of `a` ends. -/
def THit (w : World) (a k x : Nat) : Prop := w.mem x = a ∧ w.mem (x + 1) = k

/-- One step of the search. -/
theorem run_tsearch_step (hP : P.Has transientCode) (hw : Words w) (ha : a < 2 ^ 256) (hL : L ≤ tranBase + 2 ^ 32 - 3) (hiL : i < L) (h : ¬ THit w a k i) :
    Reaches P (.goto (P.addr "search_transient_storage_loop") (i :: L :: a :: k :: ret :: S) w) (.goto (P.addr "search_transient_storage_loop") ((i + 1) :: L :: a :: k :: ret :: S) w) := by
  have hx := hw i
  simp only [tranBase] at hL
  enter hP in transientCode
  rw [b_search_transient_storage_loop]
  kexec []
  rw [if_pos (by omega)]
  have next : Reaches P (exec P b_increment_and_loop (i :: L :: a :: k :: ret :: S) w) (.goto (P.addr "search_transient_storage_loop") ((i + 1) :: L :: a :: k :: ret :: S) w) := by
    rw [b_increment_and_loop]
    kexec [m_increment, m_add_const]
    rw [wadd_small (by omega), Nat.add_comm 1 i]
    exact .refl _
  rw [exec_mload_at (by omega)]
  kexec []
  by_cases e : w.mem i = a
  · rw [if_pos (by rw [wsub_eq_zero ha hx]; exact e.symm)]
    kexec [m_increment, m_add_const]
    rw [wadd_small (by omega), Nat.add_comm 1 i, exec_mload_at (by omega)]
    kexec []
    rw [if_pos ?_]
    · exact next
    · have : ¬ k = w.mem (i + 1) := fun e' => h ⟨e, e'.symm⟩
      simpa [weq] using this
  · rw [if_neg (by rw [wsub_eq_zero ha hx]; exact fun e' => e e'.symm)]
    enter hP in transientCode
    exact next

/-- The steps before the search ends. -/
theorem run_tsearch_skip (hP : P.Has transientCode) (hw : Words w) (ha : a < 2 ^ 256) (hL : L ≤ tranBase + 2 ^ 32 - 3) :
    ∀ {d i : Nat}, i + d ≤ L → (∀ x, i ≤ x → x < i + d → ¬ THit w a k x) →
      Reaches P (.goto (P.addr "search_transient_storage_loop") (i :: L :: a :: k :: ret :: S) w) (.goto (P.addr "search_transient_storage_loop") ((i + d) :: L :: a :: k :: ret :: S) w) := by
  intro d
  induction d with
  | zero => intro i _ _; exact .refl _
  | succ d ih =>
    intro i h1 h2
    have := ih (i := i + 1) (by omega) fun x hx hx' => h2 x (by omega) (by omega)
    rw [show i + (d + 1) = i + 1 + d by omega]
    exact (run_tsearch_step hP hw ha hL (by omega) (h2 i (Nat.le_refl _) (by omega))).trans this

/-- The start of the search. -/
theorem run_tsearch_start {s : List Nat} (hP : P.Has transientCode) (hl : w.mem tranLen = L) (hs : s.head? ≠ some tranBase)
    (h : Reaches P (.goto (P.addr "search_transient_storage_loop") (tranBase :: L :: a :: k :: ret :: S) w) (.goto ret s w)) :
    Reaches P (.goto (P.addr "search_transient_storage") (a :: k :: ret :: S) w) (.goto ret s w) := by
  enter hP in transientCode
  rw [b_search_transient_storage, exec_load_global (by omega), show w.mem 0x500000033 = L from hl]
  rw [exec_push]
  generalize hX : Out.goto ret s w = X at h
  cases h with
  | refl => cases hX; exact absurd rfl hs
  | step _ h =>
    rw [(hP ("search_transient_storage_loop", b_search_transient_storage_loop) (by simp [transientCode])).1] at h
    subst hX
    exact h

/-- The search finds the first place, at whatever distance from the start of an entry, where an address and a slot stand one after the other. -/
theorem run_tsearch_found (hP : P.Has transientCode) (hw : Words w) (ha : a < 2 ^ 256) (hl : w.mem tranLen = L) (hL : L ≤ tranBase + 2 ^ 32 - 3) (hj : tranBase ≤ j) (hjL : j < L)
    (h : THit w a k j) (hn : ∀ x, tranBase ≤ x → x < j → ¬ THit w a k x) :
    Reaches P (.goto (P.addr "search_transient_storage") (a :: k :: ret :: S) w) (.goto ret (1 :: j :: a :: w.mem (j + 2) :: k :: S) w) := by
  have hx := hw j
  obtain ⟨h1, h2⟩ := h
  have go := run_tsearch_skip (ret := ret) (S := S) (k := k) (d := j - tranBase) (i := tranBase) hP hw ha hL (by omega) fun x hx hx' => hn x hx (by omega)
  rw [show tranBase + (j - tranBase) = j by omega] at go
  refine run_tsearch_start hP hl (by simp [tranBase]) (go.trans ?_)
  simp only [tranBase] at hj hL
  enter hP in transientCode
  rw [b_search_transient_storage_loop]
  kexec []
  rw [if_pos (by omega)]
  rw [exec_mload_at (by omega)]
  kexec []
  rw [if_pos (by rw [wsub_eq_zero ha hx]; exact h1.symm)]
  kexec [m_increment, m_add_const]
  rw [wadd_small (by omega), Nat.add_comm 1 j, exec_mload_at (by omega)]
  kexec []
  rw [if_neg (by simp [h2])]
  enter hP in transientCode
  rw [b_search_transient_storage_found]
  kexec [m_add_const]
  rw [wadd_small (by omega), Nat.add_comm 2 j, exec_mload_at (by omega)]
  kexec []
  exact .refl _

/-- Otherwise it ends where the array does. -/
theorem run_tsearch_none (hP : P.Has transientCode) (hw : Words w) (ha : a < 2 ^ 256) (hl : w.mem tranLen = L) (hL : L ≤ tranBase + 2 ^ 32 - 3) (hL' : tranBase ≤ L)
    (hn : ∀ x, tranBase ≤ x → x < L → ¬ THit w a k x) :
    Reaches P (.goto (P.addr "search_transient_storage") (a :: k :: ret :: S) w) (.goto ret (0 :: L :: a :: 0 :: k :: S) w) := by
  have go := run_tsearch_skip (ret := ret) (S := S) (k := k) (d := L - tranBase) (i := tranBase) hP hw ha hL (by omega) fun x hx hx' => hn x hx (by omega)
  rw [show tranBase + (L - tranBase) = L by omega] at go
  refine run_tsearch_start hP hl (by simp [tranBase]) (go.trans ?_)
  enter hP in transientCode
  rw [b_search_transient_storage_loop]
  generalize DUP 1 :: _ = t
  kexec []
  rw [if_neg (by simp)]
  enter hP in transientCode
  rw [b_search_transient_storage_not_found]
  kexec []
  exact .refl _

/-! ### The array -/

/-- The array holds the entries `T`, each of an address, a slot and a value, and no slot twice. -/
structure TransIs (w : World) (T : List (Nat × Nat × Nat)) : Prop where
  len : w.mem tranLen = tranBase + 3 * T.length
  room : 3 * T.length + 3 ≤ 2 ^ 32
  cells : ∀ i e, T[i]? = some e → w.mem (tranBase + 3 * i) = e.1 ∧ w.mem (tranBase + 3 * i + 1) = e.2.1 ∧ w.mem (tranBase + 3 * i + 2) = e.2.2
  once : ∀ (i j : Nat) (e e' : Nat × Nat × Nat), T[i]? = some e → T[j]? = some e' → e.1 = e'.1 → e.2.1 = e'.2.1 → i = j

/-- Nowhere between two entries is there what looks like the slot `k` of `a`. -/
def TClean (w : World) (T : List (Nat × Nat × Nat)) (a k : Nat) : Prop :=
  ∀ i e, T[i]? = some e → ¬ (e.2.1 = a ∧ e.2.2 = k) ∧ ¬ (e.2.2 = a ∧ w.mem (tranBase + 3 * i + 3) = k)

/-- The entry number `i` is that of the slot `k` of `a`. -/
def TAt (T : List (Nat × Nat × Nat)) (a k i v : Nat) : Prop := T[i]? = some (a, k, v)

/-- The value of the slot `k` of `a` in the array. -/
def TVal (T : List (Nat × Nat × Nat)) (a k v : Nat) : Prop := (∃ i, TAt T a k i v) ∨ ((∀ i u, ¬ TAt T a k i u) ∧ v = 0)

/-- The array holds the transient storage `t`. -/
def TransAre (w : World) (T : List (Nat × Nat × Nat)) (t : Nat → Nat → Nat) : Prop := TransIs w T ∧ ∀ a k, TVal T a k (t a k)

variable {T : List (Nat × Nat × Nat)} {t : Nat → Nat → Nat}

theorem TransIs.hit (h : TransIs w T) (hc : TClean w T a k) {x : Nat} (hx : tranBase ≤ x) (hx' : x < tranBase + 3 * T.length) (hh : THit w a k x) : ∃ i v, x = tranBase + 3 * i ∧ TAt T a k i v := by
  obtain ⟨i, r, hr, rfl⟩ : ∃ i r, r < 3 ∧ x = tranBase + 3 * i + r := ⟨(x - tranBase) / 3, (x - tranBase) % 3, by omega, by omega⟩
  have hi : i < T.length := by omega
  have hT := List.getElem?_eq_getElem hi
  generalize T[i] = e at hT
  obtain ⟨c1, c2, c3⟩ := h.cells i e hT
  obtain ⟨d1, d2⟩ := hc i e hT
  obtain ⟨h1, h2⟩ := hh
  have : r = 0 ∨ r = 1 ∨ r = 2 := by omega
  rcases this with rfl | rfl | rfl
  · refine ⟨i, e.2.2, rfl, ?_⟩
    rw [Nat.add_zero] at h1 h2
    obtain ⟨e1, e2, e3⟩ := e
    rw [c1] at h1; rw [c2] at h2
    simp only at h1 h2
    subst h1 h2
    exact hT
  · exact absurd ⟨c2.symm.trans h1, c3.symm.trans h2⟩ d1
  · exact absurd ⟨c3.symm.trans h1, h2⟩ d2

/-- The search when nothing between two entries misleads it. -/
theorem run_tsearch (hP : P.Has transientCode) (hw : Words w) (ha : a < 2 ^ 256) (h : TransIs w T) (hc : TClean w T a k) :
    (∃ i v, TAt T a k i v ∧ Reaches P (.goto (P.addr "search_transient_storage") (a :: k :: ret :: S) w) (.goto ret (1 :: (tranBase + 3 * i) :: a :: v :: k :: S) w)) ∨
    ((∀ i u, ¬ TAt T a k i u) ∧ Reaches P (.goto (P.addr "search_transient_storage") (a :: k :: ret :: S) w) (.goto ret (0 :: (tranBase + 3 * T.length) :: a :: 0 :: k :: S) w)) := by
  have hr := h.room
  by_cases hx : ∃ i v, TAt T a k i v
  · obtain ⟨i, v, hi⟩ := hx
    left
    refine ⟨i, v, hi, ?_⟩
    obtain ⟨c1, c2, c3⟩ := h.cells i _ hi
    have hl : i < T.length := (List.getElem?_eq_some_iff.1 hi).1
    have := run_tsearch_found (ret := ret) (S := S) (j := tranBase + 3 * i) hP hw ha h.len (by omega) (by omega) (by omega) ⟨c1, c2⟩ fun x hx hx' hh => by
      obtain ⟨j, u, rfl, hj⟩ := h.hit hc hx (by omega) hh
      have := h.once i j _ _ hi hj rfl rfl
      omega
    rw [c3] at this
    exact this
  · right
    refine ⟨fun i u hi => hx ⟨i, u, hi⟩, run_tsearch_none hP hw ha h.len (by omega) (by omega) fun x hx1 hx2 hh => ?_⟩
    obtain ⟨j, u, -, hj⟩ := h.hit hc hx1 hx2 hh
    exact hx ⟨j, u, hj⟩

/-- The search gives the value. -/
theorem TVal.eq (h : TransIs w T) (hv : TVal T a k v) {i u : Nat} (hi : TAt T a k i u) : v = u := by
  rcases hv with ⟨j, hj⟩ | ⟨hn, -⟩
  · have := h.once i j _ _ hi hj rfl rfl
    subst this
    have := hi.symm.trans hj
    cases this; rfl
  · exact absurd hi (hn i u)

/-- TLOAD. -/
theorem run_tload (hP : P.Has transientCode) (hS : Serving w K) (hw : Words w) (h : TransAre w T t) (hc : TClean w T w.self slot) :
    Reaches P (.goto (P.addr "sys_tload") (K :: slot :: S) w)
      (if K / 2 ^ 192 + 100 ≤ w.gasLimit then .exit (K + 100 * 2 ^ 192) (t w.self slot :: S) w else .goto (P.addr "fault_exception") ((K + 100 * 2 ^ 192) :: slot :: S) w) := by
  have hs : w.self < 2 ^ 256 := hw _
  enter hP in transientCode
  rw [b_sys_tload, exec_charge_const hS (by omega)]
  split
  · kexec []
    enter hP in transientCode
    rw [b_tload_current, exec_address hS.ctx]
    kexec []
    rcases run_tsearch (ret := P.addr "transient_storage@1.after") (S := P.addr "transient_storage@2.after" :: (K + 100 * 2 ^ 192) :: S) hP hw hs h.1 hc with ⟨i, v, hi, R⟩ | ⟨hn, R⟩
    · refine R.trans ?_
      rw [(h.2 _ _).eq h.1 hi]
      enter hP in transientCode
      rw [b_transient_storage_1_after]
      kexec []
      enter hP in transientCode
      rw [b_tload_found]
      kexec []
      enter hP in transientCode
      rw [b_transient_storage_2_after]
      kexec []
      exact .refl _
    · refine R.trans ?_
      have : t w.self slot = 0 := by
        rcases h.2 w.self slot with ⟨i, hi⟩ | ⟨-, e⟩
        · exact absurd hi (hn _ _)
        · exact e
      rw [this]
      enter hP in transientCode
      rw [b_transient_storage_1_after]
      kexec []
      enter hP in transientCode
      rw [b_transient_storage_2_after]
      kexec []
      exact .refl _
  · exact .refl _

/-! ### TSTORE -/

/-- The cells of the array. -/
def TranArea (a : Nat) : Prop := a = tranLen ∨ (tranBase ≤ a ∧ a < tranBase + 2 ^ 32)

/-- The slot `k` of `a` set to `v` (specification). -/
def tset (t : Nat → Nat → Nat) (a k v : Nat) : Nat → Nat → Nat := fun b j => if b = a ∧ j = k then v else t b j

/-- An entry written at `p`. -/
def tput (w : World) (p a k v : Nat) : World := ((w.set p a).set (p + 1) k).set (p + 2) v

/-- The length of the array after a write at `p`. -/
def tgrow (w : World) (p : Nat) : World := if w.mem tranLen < p + 2 then w.set tranLen (p + 3) else w

theorem tput_mem {b : Nat} (hb : b < p ∨ p + 2 < b) : (tput w p a k v).mem b = w.mem b := by
  rw [tput, set_ne (by omega), set_ne (by omega), set_ne (by omega)]

/-- What happens after the search. -/
theorem run_tstore_write (hP : P.Has transientCode) {f u p : Nat} (hp : p + 3 ≤ tranBase + 2 ^ 32) (hb : tranBase ≤ p) (hd : w.mem jdatLen + 4 ≤ 2 ^ 32) (hj : w.mem jourLen < 2 ^ 32) :
    Reaches P (.goto (P.addr "transient_storage@3.after") (f :: p :: a :: u :: slot :: v :: K :: S) w)
      (.exit K S (if v = u then tgrow (tput w p a slot v) p else pushEntry (tgrow (tput w p a slot v) p) [11, a, slot, u])) := by
  simp only [tranBase] at hp hb
  have hL : (tput w p a slot v).mem tranLen = w.mem tranLen := tput_mem (by simp only [tranLen]; omega)
  have last : ∀ w1 : World, w1.mem jdatLen = w.mem jdatLen → w1.mem jourLen = w.mem jourLen →
      Reaches P (exec P b_sys_tstore_charge_gas (a :: u :: slot :: v :: K :: S) w1) (.exit K S (if v = u then w1 else pushEntry w1 [11, a, slot, u])) := by
    intro w1 h1 h2
    rw [b_sys_tstore_charge_gas]
    kexec []
    by_cases hvu : v = u
    · rw [if_neg (by simpa using hvu), if_pos hvu]
      enter hP in transientCode
      rw [b_tstore_noop]
      kexec [m_pop3, rep]
      exact .refl _
    · rw [if_pos (by simpa using hvu), if_neg hvu, b_add_to_journal, m_journal_add_transient_storage_change]
      rw [List.append_nil, exec_journal_3 (by omega) (by omega)]
      kexec []
      exact .refl _
  enter hP in transientCode
  rw [b_transient_storage_3_after]
  obtain ⟨tl, htl⟩ : ∃ tl, b_sys_tstore_charge_gas = tl := ⟨_, rfl⟩
  rw [htl] at last ⊢
  kexec [m_increment, m_add_const]
  rw [exec_mstore_at (by omega)]
  kexec []
  rw [wadd_small (by omega), exec_mstore_at (by omega)]
  kexec []
  rw [wadd_small (by omega), exec_mstore_at (by omega)]
  rw [show 1 + (1 + p) = p + 2 by omega, show 1 + p = p + 1 by omega, show ((w.set p a).set (p + 1) slot).set (p + 2) v = tput w p a slot v from rfl, exec_load_global (by omega), hL]
  have k1 : (tput w p a slot v).mem jdatLen = w.mem jdatLen := tput_mem (by simp only [jdatLen]; omega)
  have k2 : (tput w p a slot v).mem jourLen = w.mem jourLen := tput_mem (by simp only [jourLen]; omega)
  kexec []
  by_cases hlt : w.mem tranLen < p + 2
  · rw [if_neg (by simpa [wgt] using hlt), tgrow, hL, if_pos hlt]
    enter hP in transientCode
    rw [b_new_transient_storage_len]
    kexec [m_increment, m_add_const]
    rw [wadd_small (by omega), exec_store_global (by omega), show 1 + (p + 2) = p + 3 by omega]
    kexec []
    enter hP in transientCode
    rw [htl]
    refine last _ ?_ ?_
    · exact (set_ne (by decide)).trans k1
    · exact (set_ne (by decide)).trans k2
  · rw [if_pos (by simpa [wgt] using hlt), tgrow, hL, if_neg hlt]
    exact last _ k1 k2

/-- The array after the entry of the slot `k` of `a` has been set to `v`. -/
def TPut (T : List (Nat × Nat × Nat)) (a k v : Nat) (T' : List (Nat × Nat × Nat)) : Prop :=
  (∃ i u, TAt T a k i u ∧ T' = T.set i (a, k, v)) ∨ ((∀ i u, ¬ TAt T a k i u) ∧ T' = T ++ [(a, k, v)])

theorem TransIs.put (h : TransIs w T) {i u : Nat} (hi : TAt T a k i u) : TransIs (tgrow (tput w (tranBase + 3 * i) a k v) (tranBase + 3 * i)) (T.set i (a, k, v)) := by
  have hl : i < T.length := (List.getElem?_eq_some_iff.1 hi).1
  have hr := h.room
  have hL : (tput w (tranBase + 3 * i) a k v).mem tranLen = w.mem tranLen := tput_mem (by simp only [tranLen, tranBase]; omega)
  have e : tgrow (tput w (tranBase + 3 * i) a k v) (tranBase + 3 * i) = tput w (tranBase + 3 * i) a k v := by
    rw [tgrow, hL, h.len, if_neg (by omega)]
  rw [e]
  refine ⟨by rw [hL, h.len, List.length_set], by rw [List.length_set]; exact hr, fun j e hj => ?_, fun j j' e e' hj hj' h1 h2 => ?_⟩
  · rw [List.getElem?_set] at hj
    by_cases hij : i = j
    · subst hij
      rw [if_pos rfl, if_pos hl] at hj
      cases hj
      simp only [tput]
      refine ⟨?_, ?_, ?_⟩
      · rw [set_ne (by omega), set_ne (by omega), set_same]
      · rw [set_ne (by omega), set_same]
      · rw [set_same]
    · rw [if_neg hij] at hj
      obtain ⟨c1, c2, c3⟩ := h.cells j e hj
      refine ⟨?_, ?_, ?_⟩
      · rw [tput_mem (by omega), c1]
      · rw [tput_mem (by omega), c2]
      · rw [tput_mem (by omega), c3]
  · have key : ∀ (j : Nat) (e : Nat × Nat × Nat), (T.set i (a, k, v))[j]? = some e → ∃ x, T[j]? = some (e.1, e.2.1, x) := by
      intro j e hj
      rw [List.getElem?_set] at hj
      by_cases hij : i = j
      · subst hij
        rw [if_pos rfl, if_pos hl] at hj
        cases hj
        exact ⟨u, hi⟩
      · rw [if_neg hij] at hj
        exact ⟨e.2.2, hj⟩
    obtain ⟨x, hx⟩ := key j e hj
    obtain ⟨x', hx'⟩ := key j' e' hj'
    exact h.once j j' _ _ hx hx' h1 h2

theorem TransIs.add (h : TransIs w T) (hn : ∀ i u, ¬ TAt T a k i u) (hr : 3 * T.length + 6 ≤ 2 ^ 32) :
    TransIs (tgrow (tput w (tranBase + 3 * T.length) a k v) (tranBase + 3 * T.length)) (T ++ [(a, k, v)]) := by
  have hL : (tput w (tranBase + 3 * T.length) a k v).mem tranLen = w.mem tranLen := tput_mem (by simp only [tranLen, tranBase]; omega)
  rw [tgrow, hL, h.len, if_pos (by omega)]
  have get : ∀ (j : Nat) (e : Nat × Nat × Nat), (T ++ [(a, k, v)])[j]? = some e → T[j]? = some e ∨ (j = T.length ∧ e = (a, k, v)) := by
    intro j e hj
    by_cases hl : j < T.length
    · rw [List.getElem?_append_left hl] at hj; exact .inl hj
    · rw [List.getElem?_append_right (by omega)] at hj
      have : j - T.length = 0 := by
        have := (List.getElem?_eq_some_iff.1 hj).1
        simp only [List.length_singleton] at this; omega
      rw [this] at hj
      cases hj
      exact .inr ⟨by omega, rfl⟩
  refine ⟨?_, ?_, fun j e hj => ?_, fun j j' e e' hj hj' h1 h2 => ?_⟩
  · rw [set_same, List.length_append, List.length_singleton]; omega
  · rw [List.length_append, List.length_singleton]; omega
  · have hn1 : ∀ x, tranLen < x → ((tput w (tranBase + 3 * T.length) a k v).set tranLen (tranBase + 3 * T.length + 3)).mem x = (tput w (tranBase + 3 * T.length) a k v).mem x := fun x hx => set_ne (by omega)
    have far : tranLen < tranBase := by decide
    rcases get j e hj with hj | ⟨rfl, rfl⟩
    · have hl : j < T.length := (List.getElem?_eq_some_iff.1 hj).1
      obtain ⟨c1, c2, c3⟩ := h.cells j e hj
      refine ⟨?_, ?_, ?_⟩
      · rw [hn1 _ (by omega), tput_mem (by omega), c1]
      · rw [hn1 _ (by omega), tput_mem (by omega), c2]
      · rw [hn1 _ (by omega), tput_mem (by omega), c3]
    · refine ⟨?_, ?_, ?_⟩
      · rw [hn1 _ (by omega), tput, set_ne (by omega), set_ne (by omega), set_same]
      · rw [hn1 _ (by omega), tput, set_ne (by omega), set_same]
      · rw [hn1 _ (by omega), tput, set_same]
  · rcases get j e hj with hj | ⟨rfl, rfl⟩ <;> rcases get j' e' hj' with hj' | ⟨rfl, rfl⟩
    · exact h.once j j' e e' hj hj' h1 h2
    · simp only at h1 h2
      exact absurd (show TAt T a k j e.2.2 by rw [TAt, hj, ← h1, ← h2]) (hn _ _)
    · simp only at h1 h2
      exact absurd (show TAt T a k j' e'.2.2 by rw [TAt, hj', h1, h2]) (hn _ _)
    · rfl

theorem TVal.put (hp : TPut T a k v T') (ht : ∀ b j, TVal T b j (t b j)) : ∀ b j, TVal T' b j (tset t a k v b j) := by
  intro b j
  rcases hp with ⟨i, u, hi, rfl⟩ | ⟨hn, rfl⟩
  · have hl : i < T.length := (List.getElem?_eq_some_iff.1 hi).1
    by_cases hbj : b = a ∧ j = k
    · obtain ⟨rfl, rfl⟩ := hbj
      left
      refine ⟨i, ?_⟩
      rw [TAt, List.getElem?_set, if_pos rfl, if_pos hl, tset, if_pos ⟨rfl, rfl⟩]
    · rw [tset, if_neg hbj]
      have hs : ∀ i' x, TAt (T.set i (a, k, v)) b j i' x ↔ TAt T b j i' x := by
        intro i' x
        rw [TAt, TAt, List.getElem?_set]
        by_cases hii : i = i'
        · subst hii
          rw [if_pos rfl, if_pos hl, show T[i]? = some (a, k, u) from hi]
          constructor
          · intro h; cases h; exact absurd ⟨rfl, rfl⟩ hbj
          · intro h; cases h; exact absurd ⟨rfl, rfl⟩ hbj
        · rw [if_neg hii]
      rcases ht b j with ⟨i', h'⟩ | ⟨hn, e⟩
      · exact .inl ⟨i', (hs _ _).2 h'⟩
      · exact .inr ⟨fun i' x h' => hn i' x ((hs _ _).1 h'), e⟩
  · by_cases hbj : b = a ∧ j = k
    · obtain ⟨rfl, rfl⟩ := hbj
      left
      refine ⟨T.length, ?_⟩
      rw [TAt, List.getElem?_append_right (Nat.le_refl _), Nat.sub_self, tset, if_pos ⟨rfl, rfl⟩]; rfl
    · rw [tset, if_neg hbj]
      rcases ht b j with ⟨i', h'⟩ | ⟨hn', e⟩
      · refine .inl ⟨i', ?_⟩
        rw [TAt, List.getElem?_append_left (List.getElem?_eq_some_iff.1 h').1]; exact h'
      · refine .inr ⟨fun i' x h' => ?_, e⟩
        by_cases hl : i' < T.length
        · rw [TAt, List.getElem?_append_left hl] at h'; exact hn' i' x h'
        · rw [TAt, List.getElem?_append_right (by omega)] at h'
          generalize i' - T.length = y at h'
          cases y with
          | zero => cases h'; exact hbj ⟨rfl, rfl⟩
          | succ y => simp at h'

theorem TransIs.congr (h : TransIs w T) (hm : ∀ b, TranArea b → w'.mem b = w.mem b) : TransIs w' T := by
  have hr := h.room
  refine ⟨by rw [hm _ (.inl rfl), h.len], hr, fun i e hi => ?_, h.once⟩
  have hl : i < T.length := (List.getElem?_eq_some_iff.1 hi).1
  obtain ⟨c1, c2, c3⟩ := h.cells i e hi
  exact ⟨by rw [hm _ (.inr ⟨by omega, by omega⟩), c1], by rw [hm _ (.inr ⟨by omega, by omega⟩), c2], by rw [hm _ (.inr ⟨by omega, by omega⟩), c3]⟩

theorem tgrow_keeps {p : Nat} (hb : tranBase ≤ p) (hp : p + 3 ≤ tranBase + 2 ^ 32) : Keeps w (tgrow (tput w p a k v) p) TranArea := by
  have h1 : Keeps w (tput w p a k v) TranArea :=
    ((Keeps.set (.inr ⟨by omega, by omega⟩)).trans (Keeps.set (.inr ⟨by omega, by omega⟩))).trans (Keeps.set (.inr ⟨by omega, by omega⟩))
  rw [tgrow]
  split
  · exact h1.trans (Keeps.set (.inl rfl))
  · exact h1

theorem tgrow_words {p : Nat} (hw : Words w) (hp : p + 3 ≤ tranBase + 2 ^ 32) (ha : a < 2 ^ 256) (hk : k < 2 ^ 256) (hv : v < 2 ^ 256) : Words (tgrow (tput w p a k v) p) := by
  have h1 : Words (tput w p a k v) := ((hw.set ha).set hk).set hv
  simp only [tranBase] at hp
  rw [tgrow]
  split
  · exact h1.set (by omega)
  · exact h1

theorem tran_jour (b : Nat) (h : JourArea b) : ¬ TranArea b := by
  simp only [JourArea, TranArea, jourLen, jdatLen, jourBase, jdatBase, tranBase, tranLen] at *; omega

/-- TSTORE. -/
theorem run_tstore (hP : P.Has transientCode) (hS : Serving w K) (hw : Words w) (h : TransAre w T t) (hc : TClean w T w.self slot) (hJ : JournalIs w js)
    (hr : 3 * T.length + 6 ≤ 2 ^ 32) (hd : w.mem jdatLen + 4 ≤ 2 ^ 32) (hj : js.length < 2 ^ 32) (hs : slot < 2 ^ 256) (hv : v < 2 ^ 256)
    (hstatic : w.mem (w.ctx * 2 ^ 64 + 0x600000008) = 0) (hg : K / 2 ^ 192 + 100 ≤ w.gasLimit) :
    ∃ w' T', Reaches P (.goto (P.addr "sys_tstore") (K :: slot :: v :: S) w) (.exit (K + 100 * 2 ^ 192) S w') ∧ Words w' ∧
      TPut T w.self slot v T' ∧ TransAre w' T' (tset t w.self slot v) ∧
      JournalIs w' (js ++ if v = t w.self slot then [] else [[11, w.self, slot, t w.self slot]]) ∧
      w'.mem jdatLen ≤ w.mem jdatLen + 4 ∧ Keeps w w' (fun b => TranArea b ∨ JourArea b) := by
  have ha : w.self < 2 ^ 256 := hw _
  obtain ⟨p, f, u, R, hb, hp, hu, T', hT', hI⟩ : ∃ p f u, Reaches P (.goto (P.addr "search_transient_storage") (w.self :: slot :: P.addr "transient_storage@3.after" :: v :: (K + 100 * 2 ^ 192) :: S) w)
      (.goto (P.addr "transient_storage@3.after") (f :: p :: w.self :: u :: slot :: v :: (K + 100 * 2 ^ 192) :: S) w) ∧ tranBase ≤ p ∧ p + 3 ≤ tranBase + 2 ^ 32 ∧ u = t w.self slot ∧
      ∃ T', TPut T w.self slot v T' ∧ TransIs (tgrow (tput w p w.self slot v) p) T' := by
    rcases run_tsearch (ret := P.addr "transient_storage@3.after") (S := v :: (K + 100 * 2 ^ 192) :: S) hP hw ha h.1 hc with ⟨i, u, hi, R⟩ | ⟨hn, R⟩
    · have hl : i < T.length := (List.getElem?_eq_some_iff.1 hi).1
      exact ⟨_, _, _, R, by omega, by omega, ((h.2 _ _).eq h.1 hi).symm, _, .inl ⟨i, u, hi, rfl⟩, h.1.put hi⟩
    · refine ⟨_, _, _, R, by omega, by omega, ?_, _, .inr ⟨hn, rfl⟩, h.1.add hn hr⟩
      rcases h.2 w.self slot with ⟨i, hi⟩ | ⟨-, e⟩
      · exact absurd hi (hn _ _)
      · exact e.symm
  have R2 := run_tstore_write (P := P) (S := S) (w := w) (K := K + 100 * 2 ^ 192) (f := f) (a := w.self) (u := u) (slot := slot) (v := v) hP hp hb hd (by rw [hJ.len]; exact hj)
  have start : Reaches P (.goto (P.addr "sys_tstore") (K :: slot :: v :: S) w)
      (.goto (P.addr "search_transient_storage") (w.self :: slot :: P.addr "transient_storage@3.after" :: v :: (K + 100 * 2 ^ 192) :: S) w) := by
    enter hP in transientCode
    rw [b_sys_tstore]
    kexec [m_check_static]
    rw [exec_load_ctx hS.ctx (by omega), hstatic]
    kexec []
    rw [exec_charge_const hS (by omega), if_pos hg]
    kexec []
    rw [exec_address hS.ctx]
    kexec []
    exact .refl _
  have k1 := tgrow_keeps (w := w) (a := w.self) (k := slot) (v := v) hb hp
  have w1 := tgrow_words (a := w.self) (k := slot) (v := v) hw hp ha hs hv
  have j1 : JournalIs (tgrow (tput w p w.self slot v) p) js := hJ.congr fun b hb => k1.2.2 b (tran_jour b hb)
  have d1 : (tgrow (tput w p w.self slot v) p).mem jdatLen = w.mem jdatLen := k1.2.2 _ (tran_jour _ (.inr (.inl rfl)))
  subst hu
  have tv := TVal.put hT' h.2
  by_cases hvt : v = t w.self slot
  · rw [if_pos hvt] at R2
    refine ⟨_, T', start.trans (R.trans R2), w1, hT', ⟨hI, tv⟩, ?_, by omega, k1.mono fun _ => .inl⟩
    rw [if_pos hvt, List.append_nil]; exact j1
  · rw [if_neg hvt] at R2
    have hu : t w.self slot < 2 ^ 256 := by
      rcases h.2 w.self slot with ⟨i, hi⟩ | ⟨-, e⟩
      · have := (h.1.cells i _ hi).2.2
        simp only at this
        rw [← this]; exact hw _
      · rw [e]; omega
    obtain ⟨q1, q2, q3, q4⟩ := j1.push (l := [11, w.self, slot, t w.self slot]) w1 (by rw [d1]; exact hd) hj (by simp only [List.mem_cons, List.not_mem_nil, or_false]; rintro x (rfl | rfl | rfl | rfl) <;> first | assumption | omega)
    refine ⟨_, T', start.trans (R.trans R2), q3, hT', ⟨hI.congr fun b hb => q2.2.2 b fun hb' => tran_jour b hb' hb, tv⟩, ?_, by rw [q4, d1]; simp, (k1.mono fun _ => .inl).trans (q2.mono fun _ => .inr)⟩
    rw [if_neg hvt]; exact q1

/-- TSTORE in a static call, or without the gas for it. -/
theorem run_tstore_refused (hP : P.Has transientCode) (hS : Serving w K) (hbad : w.mem (w.ctx * 2 ^ 64 + 0x600000008) ≠ 0 ∨ w.gasLimit < K / 2 ^ 192 + 100) :
    ∃ K', Reaches P (.goto (P.addr "sys_tstore") (K :: slot :: v :: S) w) (.goto (P.addr "fault_exception") (K' :: slot :: v :: S) w) := by
  by_cases h1 : w.mem (w.ctx * 2 ^ 64 + 0x600000008) = 0
  · refine ⟨K + 100 * 2 ^ 192, ?_⟩
    enter hP in transientCode
    rw [b_sys_tstore]
    kexec [m_check_static]
    rw [exec_load_ctx hS.ctx (by omega), h1]
    kexec []
    rw [exec_charge_const hS (by omega), if_neg (by have := hbad.resolve_left fun e => e h1; omega)]
    exact .refl _
  · refine ⟨K, ?_⟩
    enter hP in transientCode
    rw [b_sys_tstore]
    kexec [m_check_static]
    rw [exec_load_ctx hS.ctx (by omega)]
    kexec []
    rw [if_neg h1]
    exact .refl _

/-- Undoing a TSTORE. -/
theorem run_undo_tstore (hP : P.Has transientCode) (hw : Words w) (h : TransAre w T t) (hc : TClean w T a k) (he : EntryAt w i [11, a, k, v]) (ha : a < 2 ^ 256) (hv : v < 2 ^ 256)
    {j u : Nat} (hj : TAt T a k j u) :
    ∃ w' T', Reaches P (.goto (P.addr "revert_transient_storage_change") (11 :: i :: ret :: S) w) (.goto ret S w') ∧ Words w' ∧ TPut T a k v T' ∧ TransAre w' T' (tset t a k v) ∧ Keeps w w' TranArea := by
  have hl : j < T.length := (List.getElem?_eq_some_iff.1 hj).1
  have hr := h.1.room
  have e1 := fun c s => exec_journal_load_3 (P := P) (c := c) (s := s) he
  have hI := h.1.put (v := v) hj
  have hp : TPut T a k v (T.set j (a, k, v)) := .inl ⟨j, u, hj, rfl⟩
  obtain ⟨c1, c2, c3⟩ := h.1.cells j _ hj
  have hm : ∀ b, (w.set (tranBase + 3 * j + 2) v).mem b = (tgrow (tput w (tranBase + 3 * j) a k v) (tranBase + 3 * j)).mem b := by
    intro b
    have hL : (tput w (tranBase + 3 * j) a k v).mem tranLen = w.mem tranLen := tput_mem (by simp only [tranLen, tranBase]; omega)
    rw [tgrow, hL, h.1.len, if_neg (by omega), tput]
    simp only [set_mem]
    simp only at c1 c2
    split
    · rfl
    · split
      · rename_i e; rw [e, c2]
      · split
        · rename_i e; rw [e, c1]
        · rfl
  refine ⟨w.set (tranBase + 3 * j + 2) v, _, ?_, hw.set hv, hp, ⟨hI.congr fun b _ => hm b, TVal.put hp h.2⟩, Keeps.set (.inr ⟨by omega, by omega⟩)⟩
  enter hP in transientCode
  rw [b_revert_transient_storage_change]
  generalize m_journal_load_3 = tl at *
  kexec []
  rw [e1]
  kexec []
  rcases run_tsearch (ret := P.addr "transient_storage_change@1.after") (S := v :: ret :: S) hP hw ha h.1 hc with ⟨i', u', hi', R⟩ | ⟨hn, R⟩
  · have := h.1.once j i' _ _ hj hi' rfl rfl
    subst this
    refine R.trans ?_
    simp only [tranBase]
    enter hP in transientCode
    rw [b_transient_storage_change_1_after]
    kexec [m_assert_nonzero0, m_add_const, m_pop4, rep]
    rw [wadd_small (by omega), exec_mstore_at (by omega)]
    kexec [rep]
    rw [if_pos (by omega), show 2 + (0x2400000000 + 3 * j) = 0x2400000000 + 3 * j + 2 by omega]
    exact .refl _
  · exact absurd hj (hn _ _)

end Verif.Kasm
