import Verif.Kasm.Journal
import Verif.Kasm.CallGas
import Verif.Kasm.Code.Storage

/-! The instructions that read and write storage, `SLOAD` and `SSTORE`. -/

namespace Verif.Kasm

variable {P : Prog} {c : List I} {S s : List Nat} {w w' : World} {ret n m k : Nat} {ps qs ks : List Nat} {g h : Nat → Nat → Option Nat}
  {js : List (List Nat)} {a slot v o cur x : Nat}

/-- The kernel has the routines that read and write storage. -/
structure Prog.Stores (P : Prog) : Prop where
  copies : P.Copies
  list : P.Has linkedListCode
  access : P.Has accessCode
  store : P.Has storageCode

/-- `@CTX_METADATA_ADDRESS`: the address of the account that executes. -/
def World.self (w : World) : Nat := w.mem (w.ctx * 2 ^ 64 + 0x600000004)

theorem exec_address (hc : w.ctx < 2 ^ 32) : exec P (m_address ++ c) s w = exec P c (w.self :: s) w := by
  rw [m_address, List.append_nil, exec_load_ctx hc (by omega)]; rfl

/-! ### Frames -/

/-- The cells storage instructions may write. -/
def StoreCell (a : Nat) : Prop :=
  SlotCell a ∨ KeyCell a ∨ JourArea a ∨ a = refundCell ∨ (0x700000000 ≤ a ∧ a < 0x700000020)

/-- From `w` to `w'` the code has used `i` values of the prover and has written only cells of `A`. -/
def Shift (i : Nat) (A : Nat → Prop) (w w' : World) : Prop :=
  w'.ctx = w.ctx ∧ (∀ j, w'.inp j = w.inp (j + i)) ∧ ∀ b, ¬ A b → w'.mem b = w.mem b

theorem Shift.refl {A : Nat → Prop} : Shift 0 A w w := ⟨rfl, fun _ => rfl, fun _ _ => rfl⟩

theorem Shift.trans {A : Nat → Prop} {i j : Nat} {w1 w2 w3 : World} (h1 : Shift i A w1 w2) (h2 : Shift j A w2 w3) : Shift (i + j) A w1 w3 :=
  ⟨h2.1.trans h1.1, fun k => by rw [h2.2.1, h1.2.1, Nat.add_assoc, Nat.add_comm j], fun b hb => by rw [h2.2.2 b hb, h1.2.2 b hb]⟩

theorem Shift.mono {A B : Nat → Prop} {i : Nat} (h1 : Shift i A w w') (hB : ∀ b, A b → B b) : Shift i B w w' :=
  ⟨h1.1, h1.2.1, fun b hb => h1.2.2 b fun e => hb (hB b e)⟩

theorem Keeps.frame {A : Nat → Prop} (h : Keeps w w' A) : Shift 0 A w w' :=
  ⟨h.1, fun j => by rw [h.2.1]; rfl, h.2.2⟩

theorem Keeps.frame1 {A : Nat → Prop} (h : Keeps w.next w' A) : Shift 1 A w w' :=
  ⟨h.1, fun j => by rw [h.2.1]; rfl, h.2.2⟩

/-- Fields of contexts other than the kernel's are no cells of storage. -/
theorem not_storeCell {a : Nat} (ha : 38 * 2 ^ 32 ≤ a) : ¬ StoreCell a := by
  simp only [StoreCell, SlotCell, KeyCell, JourArea, slotNext, slotBase, keyEnd, keyBase, jourLen, jdatLen, jourBase, jdatBase, refundCell]
  omega

theorem not_storeCell_meta {a : Nat} (ha : 0x600000000 ≤ a) (hb : a < 0x700000000) : ¬ StoreCell a := by
  simp only [StoreCell, SlotCell, KeyCell, JourArea, slotNext, slotBase, keyEnd, keyBase, jourLen, jdatLen, jourBase, jdatBase, refundCell]
  omega

theorem not_storeCell_ctx {b f : Nat} (h1 : 0x600000000 ≤ f) (h2 : f < 0x700000000) : ¬ StoreCell (b * 2 ^ 64 + f) := by
  rcases Nat.eq_zero_or_pos b with rfl | hb
  · rw [Nat.zero_mul, Nat.zero_add]; exact not_storeCell_meta h1 h2
  · have := Nat.mul_le_mul_right (2 ^ 64) hb
    exact not_storeCell (by omega)

theorem Shift.field {i f : Nat} (hf : Shift i StoreCell w w') (h1 : 0x600000000 ≤ f) (h2 : f < 0x700000000) :
    w'.mem (w'.ctx * 2 ^ 64 + f) = w.mem (w.ctx * 2 ^ 64 + f) := by
  rw [hf.1]; exact hf.2.2 _ (not_storeCell_ctx h1 h2)

theorem Shift.self {i : Nat} (hf : Shift i StoreCell w w') : w'.self = w.self := hf.field (by omega) (by omega)
theorem Shift.gasLimit {i : Nat} (hf : Shift i StoreCell w w') : w'.gasLimit = w.gasLimit := hf.field (by omega) (by omega)
theorem Shift.serving {i : Nat} (hf : Shift i StoreCell w w') (h : Serving w k) : Serving w' k :=
  ⟨by rw [hf.1]; exact h.ctx, by rw [hf.gasLimit]; exact h.gas, by rw [hf.gasLimit]; exact h.limit⟩

/-! ### Hints -/

/-- The world with the first `i` values of the prover gone. -/
def World.skip (w : World) (i : Nat) : World := { w with inp := fun j => w.inp (j + i) }

theorem KeyHint.congr (hK : KeysAre w m ks h) (hh : KeyHint w ks a x) (hi : w'.inp 0 = w.inp 0)
    (hm : ∀ b, keyBase ≤ b → b < keyBase + 2 ^ 32 → w'.mem b = w.mem b) : KeyHint w' ks a x := by
  obtain ⟨h1, h2, h3⟩ := hh
  have hr := hK.1.room
  have hb := hK.1.ptr_bound h1
  have hb2 := hK.1.ptr_bound (hK.1.next_mem h1)
  have e1 : slotKey w'.mem (4 * w.inp 0) = slotKey w.mem (4 * w.inp 0) := by
    simp only [slotKey]; rw [hm _ (by omega) (by omega), hm _ (by omega) (by omega)]
  have e2 : w'.mem (4 * w.inp 0 + 3) = w.mem (4 * w.inp 0 + 3) := hm _ (by omega) (by omega)
  have e3 : slotKey w'.mem (w.mem (4 * w.inp 0 + 3)) = slotKey w.mem (w.mem (4 * w.inp 0 + 3)) := by
    simp only [slotKey]; rw [hm _ (by omega) (by omega), hm _ (by omega) (by omega)]
  rw [KeyHint, hi, e1, e2, e3]
  exact ⟨h1, h2, h3⟩

theorem slot_cells (hK : SlotsAre w n qs g) {p : Nat} (h1 : p ∈ slotBase :: qs)
    (hm : ∀ b, slotBase ≤ b → b < slotBase + 2 ^ 32 → w'.mem b = w.mem b) :
    slotKey w'.mem p = slotKey w.mem p ∧ w'.mem (p + 4) = w.mem (p + 4) ∧
      w'.mem (w.mem (p + 4)) = w.mem (w.mem (p + 4)) ∧ w'.mem (w.mem (p + 4) + 1) = w.mem (w.mem (p + 4) + 1) := by
  have hr := hK.1.room
  have hb := hK.1.ptr_bound h1
  have hb2 := hK.1.ptr_bound (hK.1.next_mem h1)
  refine ⟨?_, hm _ (by omega) (by omega), hm _ (by omega) (by omega), hm _ (by omega) (by omega)⟩
  simp only [slotKey]; rw [hm _ (by omega) (by omega), hm _ (by omega) (by omega)]

theorem SlotHint.congr (hK : SlotsAre w n qs g) (hh : SlotHint w qs a x) (hi : w'.inp 0 = w.inp 0)
    (hm : ∀ b, slotBase ≤ b → b < slotBase + 2 ^ 32 → w'.mem b = w.mem b) : SlotHint w' qs a x := by
  obtain ⟨h1, h2, h3⟩ := hh
  obtain ⟨e1, e2, e3, e4⟩ := slot_cells hK h1 hm
  rw [SlotHint, hi, e1, e2]
  refine ⟨h1, h2, ?_⟩
  simp only [slotKey] at h3 ⊢
  rw [e3, e4]; exact h3

theorem SlotPred.congr (hK : SlotsAre w n qs g) (hh : SlotPred w qs a x) (hi : w'.inp 0 = w.inp 0)
    (hm : ∀ b, slotBase ≤ b → b < slotBase + 2 ^ 32 → w'.mem b = w.mem b) : SlotPred w' qs a x := by
  obtain ⟨h1, h2, h3⟩ := hh
  obtain ⟨e1, e2, e3, e4⟩ := slot_cells hK h1 hm
  rw [SlotPred, hi, e2, e3, e4]
  exact ⟨h1, h2, h3⟩

/-! ### Reading a slot -/

theorem scratch_slots {u v : Nat} (hu : u ≤ 32) (hK : SlotsAre w n qs g) : SlotsAre (w.scratch u v) n qs g :=
  hK.congr (scratch_mem (by simp only [slotNext]; omega)) fun b h1 h2 => scratch_mem (by simp only [slotBase] at *; omega)

/-- The world after the keys of an account and a slot have been computed. -/
def World.keyed (w : World) (slot a : Nat) : World := (w.scratch 32 slot).scratch 20 a

theorem keyed_ctx : (w.keyed slot a).ctx = w.ctx := by rw [World.keyed, scratch_ctx, scratch_ctx]
theorem keyed_inp : (w.keyed slot a).inp = w.inp := by rw [World.keyed, scratch_inp, scratch_inp]
theorem keyed_mem {b : Nat} (hb : b < 0x700000000 ∨ 0x700000020 ≤ b) : (w.keyed slot a).mem b = w.mem b := by
  rw [World.keyed, scratch_mem (by omega), scratch_mem (by omega)]
theorem keyed_words (hw : Words w) : Words (w.keyed slot a) := scratch_words (scratch_words hw)
theorem keyed_slots (hK : SlotsAre w n qs g) : SlotsAre (w.keyed slot a) n qs g := scratch_slots (by omega) (scratch_slots (by omega) hK)

theorem scratch_frame {u v : Nat} (hu : u ≤ 32) : Shift 0 StoreCell w (w.scratch u v) :=
  ⟨scratch_ctx, fun j => by rw [scratch_inp]; rfl, fun b hb => scratch_mem (by
    have : ¬ (0x700000000 ≤ b ∧ b < 0x700000020) := fun e => hb (.inr (.inr (.inr (.inr e))))
    omega)⟩

theorem next_frame {A : Nat → Prop} : Shift 1 A w w.next := ⟨rfl, fun _ => rfl, fun _ _ => rfl⟩

/-- The world after a slot has been looked up. -/
def World.read (w : World) (slot a : Nat) : World := (w.keyed slot a).next

theorem read_frame : Shift 1 StoreCell w (w.read slot a) :=
  Shift.trans (i := 0) (Shift.trans (i := 0) (scratch_frame (by omega)) (scratch_frame (by omega))) next_frame

/-- The value of a slot: 0 if it is not in the list. -/
def World.slotOf (P : Prog) (g : Nat → Nat → Option Nat) (a slot : Nat) : Nat := (g (P.addrKey a) (P.slotKey slot)).getD 0

/-- `sload_current` (`asm/mpt/storage/storage_read.asm:7-12`) gives what the list gives for the hashes of address and slot. -/
theorem run_sload_current_of (hP : P.Stores) (hc : w.ctx < 2 ^ 32)
    (hr : Reaches P (.goto (P.addr "search_slot") (P.addrKey w.self :: P.slotKey slot :: 0 :: P.addr "storage_read@1.after" :: ret :: S) (w.keyed slot w.self))
      (.goto (P.addr "storage_read@1.after") (cur :: ret :: S) (w.read slot w.self))) :
    Reaches P (.goto (P.addr "sload_current") (slot :: ret :: S) w) (.goto ret (cur :: S) (w.read slot w.self)) := by
  enter hP.store in storageCode
  rw [b_sload_current]
  kexec []
  refine (run_store_word hP.copies (by omega) (by omega)).trans ?_
  enter hP.store in storageCode
  rw [b_storage_read_3_after_mstore, exec_hash_word (by omega)]
  kexec []
  rw [exec_address (by rw [scratch_ctx]; exact hc), (scratch_frame (by omega)).self]
  kexec []
  refine (run_store_word hP.copies (by omega) (by omega)).trans ?_
  enter hP.store in storageCode
  rw [b_storage_read_5_after_mstore, exec_hash_word (by omega)]
  kexec []
  refine hr.trans ?_
  enter hP.store in storageCode
  rw [b_storage_read_1_after]
  kexec []
  exact .refl _

/-- For a right hint that is the value of the slot. -/
theorem run_sload_current (hP : P.Stores) (hw : Words w) (hc : w.ctx < 2 ^ 32) (hK : SlotsAre w n qs g)
    (ha : P.addrKey w.self < u256Max) (hs : P.slotKey slot < 2 ^ 256) (hi : SlotHint w qs (P.addrKey w.self) (P.slotKey slot)) :
    Reaches P (.goto (P.addr "sload_current") (slot :: ret :: S) w)
      (.goto ret (World.slotOf P g w.self slot :: S) (w.read slot w.self)) := by
  have hh : SlotHint (w.keyed slot w.self) qs (P.addrKey w.self) (P.slotKey slot) :=
    hi.congr hK (by rw [keyed_inp]) fun b h1 _ => keyed_mem (by simp only [slotBase] at h1; omega)
  exact run_sload_current_of hP hc (run_search_slot_honest hP.list (keyed_words hw) (keyed_slots hK) ha hs rfl hh.1 hh.2.1 hh.2.2)

/-- If the hint is the start of the list the value is 0, whatever the slot holds. -/
theorem run_sload_current_start (hP : P.Stores) (hc : w.ctx < 2 ^ 32) (hK : SlotsAre w n qs g) (hi : w.inp 0 = 0) :
    Reaches P (.goto (P.addr "sload_current") (slot :: ret :: S) w) (.goto ret (0 :: S) (w.read slot w.self)) :=
  run_sload_current_of hP hc (run_search_slot_start hP.list (keyed_slots hK) (by rw [keyed_inp]; exact hi))

/-! ### What a store costs and gives back -/

/-- Gas of a store, beyond that of a first access. -/
def dirtyGas (o cur v : Nat) : Nat := if v = cur ∨ o ≠ cur then 100 else if o = 0 then 20000 else 2900

/-- What is given back, in the order of the code. -/
def refundWords (o cur v : Nat) : List Nat :=
  if cur = v then [] else if cur = o then (if v = 0 then [4800] else [])
  else (if o = 0 then [] else if cur = 0 then [2 ^ 256 - 4800] else if v = 0 then [4800] else []) ++
    (if o = v then [if o = 0 then 19900 else 2800] else [])

theorem refundWords_lt {x : Nat} (h : x ∈ refundWords o cur v) : x < 2 ^ 256 := by
  simp only [refundWords] at h
  repeat' split at h
  all_goals first | simp at h; done | (simp at h; omega)

theorem refundWords_le : (refundWords o cur v).length ≤ 2 := by
  simp only [refundWords]
  repeat' split
  all_goals simp

theorem run_no_refund (hP : P.Stores) :
    Reaches P (.goto (P.addr "sstore_no_refund") (cur :: v :: o :: slot :: k :: S) w)
      (exec P b_sstore_after_refund (k :: cur :: slot :: v :: S) w) := by
  enter hP.store in storageCode
  rw [b_sstore_no_refund]
  generalize b_sstore_after_refund = t
  kexec []
  exact .refl _

theorem run_dirty_reset (hP : P.Stores) (hw : Words w) (hJ : JournalIs w js) (hd : w.mem jdatLen + 2 ≤ 2 ^ 32) (hj : js.length < 2 ^ 32) :
    Reaches P (exec P b_sstore_dirty_reset (cur :: v :: o :: slot :: k :: S) w)
      (exec P b_sstore_after_refund (k :: cur :: slot :: v :: S) (w.refunds (if o = v then [if o = 0 then 19900 else 2800] else []))) := by
  rw [b_sstore_dirty_reset]
  kexec [ne_eq]
  by_cases h1 : o = v
  · subst h1
    rw [if_neg (by simp), if_pos rfl]
    enter hP.store in storageCode
    rw [b_sstore_dirty_reset2]
    kexec [ne_eq]
    by_cases h2 : o = 0
    · subst h2
      rw [if_neg (by simp), if_pos rfl]
      enter hP.store in storageCode
      rw [b_sstore_dirty_reset_sset]
      kexec []
      rw [exec_refund_gas hw hJ hd hj (by decide)]
      kexec []
      exact run_no_refund hP
    · rw [if_pos (by simpa using h2), if_neg h2, exec_refund_gas hw hJ hd hj (by decide)]
      kexec []
      exact run_no_refund hP
  · rw [if_pos h1, if_neg h1]
    exact run_no_refund hP

/-- `sstore_refund` (`asm/mpt/storage/storage_write.asm:57-99`). -/
theorem run_refund (hP : P.Stores) (hw : Words w) (hJ : JournalIs w js) (hd : w.mem jdatLen + 4 ≤ 2 ^ 32) (hj : js.length + 2 ≤ 2 ^ 32) :
    Reaches P (exec P b_sstore_refund (k :: cur :: v :: o :: slot :: S) w)
      (exec P b_sstore_after_refund (k :: cur :: slot :: v :: S) (w.refunds (refundWords o cur v))) := by
  have hreset : Reaches P (.goto (P.addr "sstore_dirty_reset") (cur :: v :: o :: slot :: k :: S) w)
      (exec P b_sstore_after_refund (k :: cur :: slot :: v :: S) (w.refunds (if o = v then [if o = 0 then 19900 else 2800] else []))) := by
    enter hP.store in storageCode
    exact run_dirty_reset hP hw hJ (by omega) (by omega)
  have hafter : ∀ {y : Nat}, y < 2 ^ 256 → Reaches P (exec P b_sstore_dirty_reset (cur :: v :: o :: slot :: k :: S) (w.refund y))
      (exec P b_sstore_after_refund (k :: cur :: slot :: v :: S)
        ((w.refund y).refunds (if o = v then [if o = 0 then 19900 else 2800] else []))) := by
    intro y hy
    obtain ⟨h1, h2, h3, h4, h5⟩ := refund_spec hw hJ (by omega) (by omega) hy
    exact run_dirty_reset hP h3 h1 (by omega) (by simp; omega)
  rw [b_sstore_refund]
  kexec [ne_eq]
  by_cases h1 : cur = v
  · rw [if_neg (by simpa using h1), refundWords, if_pos h1]
    exact run_no_refund hP
  rw [if_pos h1, refundWords, if_neg h1]
  by_cases h2 : cur = o
  · rw [if_neg (by simpa using h2), if_pos h2]
    enter hP.store in storageCode
    rw [b_sstore_refund_original]
    kexec [ne_eq]
    by_cases h3 : v = 0
    · rw [if_neg (by simpa using h3), if_pos h3]
      enter hP.store in storageCode
      rw [b_sstore_sclear]
      kexec []
      rw [exec_refund_gas hw hJ (by omega) (by omega) (by decide)]
      kexec []
      exact run_no_refund hP
    · rw [if_pos h3, if_neg h3]
      exact run_no_refund hP
  rw [if_pos h2, if_neg h2]
  by_cases h3 : o = 0
  · rw [if_neg (by simpa using h3), if_pos h3]
    exact hreset
  rw [if_pos h3, if_neg h3]
  by_cases h4 : cur = 0
  · rw [if_neg (by simpa using h4), if_pos h4]
    enter hP.store in storageCode
    rw [b_sstore_dirty_clear1]
    kexec []
    rw [exec_refund_gas hw hJ (by omega) (by omega) (by decide)]
    kexec []
    enter hP.store in storageCode
    exact hafter (y := wsub 0 4800) (by decide)
  rw [if_pos h4, if_neg h4]
  by_cases h5 : v = 0
  · rw [if_neg (by simpa using h5), if_pos h5]
    enter hP.store in storageCode
    rw [b_sstore_dirty_clear2]
    generalize hb : b_sstore_dirty_reset = t
    kexec []
    rw [exec_refund_gas hw hJ (by omega) (by omega) (by decide), ← hb]
    exact hafter (by decide)
  · rw [if_pos h5, if_neg h5]
    exact hreset

/-- The gas of a store and what it gives back (`asm/mpt/storage/storage_write.asm:31-99`). -/
theorem run_sstore_gas (hP : P.Stores) (hS : Serving w k) (hw : Words w) (hJ : JournalIs w js) (hd : w.mem jdatLen + 4 ≤ 2 ^ 32)
    (hj : js.length + 2 ≤ 2 ^ 32) (hx : x ≤ 2100) :
    (k / 2 ^ 192 + (x + dirtyGas o cur v) ≤ w.gasLimit ∧
      Reaches P (exec P b_sstore_after_cold_access_check (x :: o :: cur :: k :: slot :: v :: S) w)
        (exec P b_sstore_after_refund ((k + (x + dirtyGas o cur v) * 2 ^ 192) :: cur :: slot :: v :: S) (w.refunds (refundWords o cur v)))) ∨
    (w.gasLimit < k / 2 ^ 192 + (x + dirtyGas o cur v) ∧ ∃ s',
      Reaches P (exec P b_sstore_after_cold_access_check (x :: o :: cur :: k :: slot :: v :: S) w) (.goto (P.addr "fault_exception") s' w)) := by
  have hcharge : ∀ {y : Nat}, y ≤ 22100 →
    (k / 2 ^ 192 + y ≤ w.gasLimit ∧
      Reaches P (exec P b_sstore_charge_gas (y :: o :: cur :: k :: slot :: v :: S) w)
        (exec P b_sstore_after_refund ((k + y * 2 ^ 192) :: cur :: slot :: v :: S) (w.refunds (refundWords o cur v)))) ∨
    (w.gasLimit < k / 2 ^ 192 + y ∧ ∃ s',
      Reaches P (exec P b_sstore_charge_gas (y :: o :: cur :: k :: slot :: v :: S) w) (.goto (P.addr "fault_exception") s' w)) := by
    intro y hy
    have hr := hS.room (g := y) (by omega)
    rw [b_sstore_charge_gas]
    generalize hb : b_sstore_refund = t
    kexec []
    rw [exec_charge_gas hS.ctx hr, ← hb]
    by_cases hl : k / 2 ^ 192 + y ≤ w.gasLimit
    · rw [if_pos hl]; exact .inl ⟨hl, run_refund hP hw hJ hd hj⟩
    · rw [if_neg hl]; exact .inr ⟨by omega, _, .refl _⟩
  have hmono : ∀ {y : Nat} {o' : Out}, y = x + dirtyGas o cur v →
      Reaches P o' (exec P b_sstore_charge_gas (y :: o :: cur :: k :: slot :: v :: S) w) → y ≤ 22100 →
      (k / 2 ^ 192 + (x + dirtyGas o cur v) ≤ w.gasLimit ∧
        Reaches P o' (exec P b_sstore_after_refund ((k + (x + dirtyGas o cur v) * 2 ^ 192) :: cur :: slot :: v :: S) (w.refunds (refundWords o cur v)))) ∨
      (w.gasLimit < k / 2 ^ 192 + (x + dirtyGas o cur v) ∧ ∃ s', Reaches P o' (.goto (P.addr "fault_exception") s' w)) := by
    intro y o' hy ho' hy'
    rw [← hy]
    rcases hcharge hy' with ⟨h1, h2⟩ | ⟨h1, s', h2⟩
    · exact .inl ⟨h1, ho'.trans h2⟩
    · exact .inr ⟨h1, s', ho'.trans h2⟩
  have hz : wadd (wiszero (weq o cur)) (weq v cur) = 0 ↔ ¬ (v = cur ∨ o ≠ cur) := by
    simp only [wadd, wiszero, weq]
    repeat' split
    all_goals simp_all
  rw [b_sstore_after_cold_access_check]
  kexec [m_mul_const]
  by_cases hc : v = cur ∨ o ≠ cur
  · rw [if_neg (by rw [hz]; exact fun e => e hc)]
    refine hmono (y := x + 100) (by rw [dirtyGas, if_pos hc]) ?_ (by omega)
    enter hP.store in storageCode
    rw [b_sstore_warm]
    generalize b_sstore_charge_gas = t
    kexec [m_add_const]
    rw [wadd_small (by omega), Nat.add_comm]
    exact .refl _
  · rw [if_pos (by rw [hz]; exact hc)]
    by_cases ho : o = 0
    · refine hmono (y := x + 20000) (by rw [dirtyGas, if_neg hc, if_pos ho]) ?_ (by omega)
      subst ho
      rw [show wmul 20000 (wiszero 0) = 20000 from rfl, show wmul 2900 (wiszero (wiszero 0)) = 0 from rfl,
        wadd_small (a := 20000) (by omega), wadd_small (by omega), Nat.zero_add, Nat.add_comm]
      enter hP.store in storageCode
      exact .refl _
    · refine hmono (y := x + 2900) (by rw [dirtyGas, if_neg hc, if_neg ho]) ?_ (by omega)
      rw [show wiszero o = 0 by simp [wiszero, ho], show wmul 20000 0 = 0 from rfl, show wmul 2900 (wiszero 0) = 2900 from rfl,
        wadd_small (a := 0) (by omega), Nat.zero_add, wadd_small (by omega), Nat.add_comm]
      enter hP.store in storageCode
      exact .refl _

/-! ### Changing the slot -/

/-- The cells the last part of a store may write. -/
def WriteCell (a : Nat) : Prop := SlotCell a ∨ JourArea a ∨ (0x700000000 ≤ a ∧ a < 0x700000020)

theorem WriteCell.store {a : Nat} (ha : WriteCell a) : StoreCell a := by
  rcases ha with ha | ha | ha
  · exact .inl ha
  · exact .inr (.inr (.inl ha))
  · exact .inr (.inr (.inr (.inr ha)))

theorem scratch_write {u v : Nat} (hu : u ≤ 32) : Shift 0 WriteCell w (w.scratch u v) :=
  ⟨scratch_ctx, fun j => by rw [scratch_inp]; rfl, fun b hb => scratch_mem (by
    have : ¬ (0x700000000 ≤ b ∧ b < 0x700000020) := fun e => hb (.inr (.inr e))
    omega)⟩

theorem JournalIs.frame {i : Nat} {A : Nat → Prop} (hJ : JournalIs w js) (hf : Shift i A w w') (hA : ∀ b, A b → ¬ JourArea b) : JournalIs w' js :=
  hJ.congr fun b hb => hf.2.2 b fun e => hA b e hb

theorem slotCell_not_jour {b : Nat} (hb : SlotCell b) : ¬ JourArea b := by
  simp only [SlotCell, JourArea, slotNext, slotBase, jourLen, jdatLen, jourBase, jdatBase] at *; omega

theorem scratch_not_jour {b : Nat} (hb : 0x700000000 ≤ b ∧ b < 0x700000020) : ¬ JourArea b := by
  simp only [JourArea, jourLen, jdatLen, jourBase, jdatBase] at *; omega

theorem scratch_journal {u v : Nat} (hu : u ≤ 32) (hJ : JournalIs w js) : JournalIs (w.scratch u v) js :=
  hJ.congr fun b hb => scratch_mem (by
    have : ¬ (0x700000000 ≤ b ∧ b < 0x700000020) := fun e => scratch_not_jour (b := b) e hb
    omega)

/-- `sstore_after_refund` (`asm/mpt/storage/storage_write.asm:100-119`), for a value other than the current one. -/
theorem run_store_value (hP : P.Stores) (hw : Words w) (hc : w.ctx < 2 ^ 32) (hK : SlotsAre w n qs g) (hJ : JournalIs w js)
    (hroom : 5 * (n + 1) ≤ 2 ^ 32) (hd : w.mem jdatLen + 4 ≤ 2 ^ 32) (hj : js.length < 2 ^ 32)
    (ha : P.addrKey w.self < u256Max) (hs : P.slotKey slot < 2 ^ 256) (hslot : slot < 2 ^ 256) (hv : v < 2 ^ 256) (hcur : cur < 2 ^ 256) (hne : v ≠ cur)
    (hi : if v = 0 then SlotPred w qs (P.addrKey w.self) (P.slotKey slot) else SlotHint w qs (P.addrKey w.self) (P.slotKey slot)) :
    ∃ w', Reaches P (exec P b_sstore_after_refund (k :: cur :: slot :: v :: S) w) (.exit k S w') ∧ Words w' ∧ Shift 1 WriteCell w w' ∧
      JournalIs w' (js ++ [[5, w.self, slot, cur]]) ∧
      ∃ n' qs', n' ≤ n + 1 ∧ SlotsAre w' n' qs' (upd2 g (P.addrKey w.self) (P.slotKey slot) (if v = 0 then none else some v)) := by
  have hme : w.self < 2 ^ 256 := hw _
  obtain ⟨j1, j2, j3, -⟩ := hJ.push (l := [5, w.self, slot, cur]) hw hd hj (by simp; omega)
  obtain ⟨w1, hw1⟩ : ∃ w1, w1 = pushEntry w [5, w.self, slot, cur] := ⟨_, rfl⟩
  rw [← hw1] at j1 j2 j3
  have f1 : Shift 0 WriteCell w w1 := j2.frame.mono fun b hb => .inr (.inl hb)
  have hs1 : w1.self = w.self := (f1.mono fun _ => WriteCell.store).self
  have hc1 : w1.ctx < 2 ^ 32 := by rw [f1.1]; exact hc
  have nj : ∀ b, slotBase ≤ b → b < slotBase + 2 ^ 32 → w1.mem b = w.mem b := fun b h1 h2 => j2.2.2 b fun e => slotCell_not_jour (.inr ⟨h1, h2⟩) e
  have hK1 : SlotsAre w1 n qs g := hK.congr (j2.2.2 _ fun e => slotCell_not_jour (.inl rfl) e) nj
  have hi1 : w1.inp 0 = w.inp 0 := f1.2.1 0
  have hlen := hJ.len
  rw [b_sstore_after_refund]
  kexec [ne_eq]
  rw [if_pos hne, exec_address hc]
  kexec [m_journal_add_storage_change]
  rw [exec_journal_3 hd (by omega), ← hw1]
  kexec [ne_eq]
  by_cases h0 : v = 0
  · rw [if_neg (by simpa using h0)]
    rw [if_pos h0] at hi
    simp only [if_pos h0]
    generalize hX : (upd2 g (P.addrKey w.self) (P.slotKey slot) none) = X
    have hh : SlotPred ((w1.scratch 20 w.self).scratch 32 slot) qs (P.addrKey w.self) (P.slotKey slot) :=
      hi.congr hK (by rw [scratch_inp, scratch_inp, hi1]) fun b h1 h2 => by
        rw [scratch_mem (by simp only [slotBase] at *; omega), scratch_mem (by simp only [slotBase] at *; omega), nj b h1 h2]
    obtain ⟨s', w', r1, rfl, r2, r3, -, qs', r4⟩ := (run_remove_slot (ret := P.addr "storage_write@12.after") (S := k :: S) hP.list
      (scratch_words (scratch_words j3)) (scratch_slots (by omega) (scratch_slots (by omega) hK1)) ha hs).sure hh
    have hfr := r2.frame1
    have hf' : Shift 1 WriteCell w w' := Shift.trans (i := 0) f1 (Shift.trans (i := 0) (scratch_write (by omega))
      (Shift.trans (i := 0) (scratch_write (by omega)) (hfr.mono fun b hb => .inl hb)))
    refine ⟨w', ?_, r3, hf', ?_, n, qs', by omega, hX ▸ r4⟩
    · enter hP.store in storageCode
      rw [b_sstore_delete]
      kexec []
      rw [exec_address hc1, hs1]
      kexec []
      refine (run_store_word hP.copies (by omega) (by omega)).trans ?_
      enter hP.store in storageCode
      rw [b_storage_write_9_after_mstore, exec_hash_word (by omega)]
      kexec []
      refine (run_store_word hP.copies (by omega) (by omega)).trans ?_
      enter hP.store in storageCode
      rw [b_storage_write_11_after_mstore, exec_hash_word (by omega)]
      kexec []
      refine r1.trans ?_
      enter hP.store in storageCode
      rw [b_storage_write_12_after]
      kexec []
      exact .refl _
    · exact (scratch_journal (by omega) (scratch_journal (by omega) j1)).frame hfr fun b => slotCell_not_jour
  · rw [if_pos h0]
    rw [if_neg h0] at hi
    simp only [if_neg h0]
    rw [exec_address hc1, hs1]
    kexec []
    have hh : SlotHint ((w1.scratch 20 w.self).scratch 32 slot) qs (P.addrKey w.self) (P.slotKey slot) :=
      hi.congr hK (by rw [scratch_inp, scratch_inp, hi1]) fun b h1 h2 => by
        rw [scratch_mem (by simp only [slotBase] at *; omega), scratch_mem (by simp only [slotBase] at *; omega), nj b h1 h2]
    obtain ⟨s', w', r1, rfl, r2, r3, n', qs', r4, r5⟩ := (run_insert_slot (ret := P.addr "storage_write@3.after") (S := k :: S) hP.list
      (scratch_words (scratch_words j3)) (scratch_slots (by omega) (scratch_slots (by omega) hK1)) ha hs hv hroom).sure hh
    have hfr := r2.frame1
    have hf' : Shift 1 WriteCell w w' := Shift.trans (i := 0) f1 (Shift.trans (i := 0) (scratch_write (by omega))
      (Shift.trans (i := 0) (scratch_write (by omega)) (hfr.mono fun b hb => .inl hb)))
    refine ⟨w', ?_, r3, hf', ?_, n', qs', r4, r5⟩
    · refine (run_store_word hP.copies (by omega) (by omega)).trans ?_
      enter hP.store in storageCode
      rw [b_storage_write_5_after_mstore, exec_hash_word (by omega)]
      kexec []
      refine (run_store_word hP.copies (by omega) (by omega)).trans ?_
      enter hP.store in storageCode
      rw [b_storage_write_7_after_mstore, exec_hash_word (by omega)]
      kexec []
      refine r1.trans ?_
      enter hP.store in storageCode
      rw [b_storage_write_3_after]
      kexec []
      exact .refl _
    · exact (scratch_journal (by omega) (scratch_journal (by omega) j1)).frame hfr fun b => slotCell_not_jour

/-- `sstore_noop` (`asm/mpt/storage/storage_write.asm:121-124`). -/
theorem run_store_same (hP : P.Stores) :
    Reaches P (exec P b_sstore_after_refund (k :: v :: slot :: v :: S) w) (.exit k S w) := by
  rw [b_sstore_after_refund]
  kexec [ne_eq]
  rw [if_neg (by simp)]
  enter hP.store in storageCode
  rw [b_sstore_noop]
  kexec [m_pop3, rep]
  exact .refl _

end Verif.Kasm
