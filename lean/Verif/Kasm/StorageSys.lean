import Verif.Kasm.Storage

/-! `SLOAD` and `SSTORE` as a whole. -/

namespace Verif.Kasm

variable {P : Prog} {c : List I} {S s : List Nat} {w w' : World} {ret n m k : Nat} {ps qs ks : List Nat} {g h : Nat → Nat → Option Nat}
  {js : List (List Nat)} {a b slot v o cur x q : Nat}

/-! ### The list of accessed keys -/

/-- Where the value of an accessed key is. -/
theorem KeysAre.place (hK : KeysAre w m ks h) (hx : x < 2 ^ 256) (hq : h a x = some q) :
    ∃ p ∈ ks, slotKey w.mem p = a * 2 ^ 256 + x ∧ p + 2 = q := by
  obtain ⟨_, _, _, _, hc⟩ := hK
  exact (hc (a * 2 ^ 256 + x) q).1 (by show h _ _ = some _; rw [div_key hx, mod_key hx]; exact hq)

theorem KeysAre.place_bound (hK : KeysAre w m ks h) (hx : x < 2 ^ 256) (hq : h a x = some q) :
    keyBase ≤ q ∧ q < keyBase + 2 ^ 32 ∧ q % 4 = 2 := by
  obtain ⟨p, hp, -, rfl⟩ := hK.place hx hq
  have hr := hK.1.room
  have hb := hK.1.ptr_bound (List.mem_cons_of_mem _ hp)
  obtain ⟨i, _, _, rfl⟩ := hK.1.nodes p hp
  simp only [keyBase] at *
  omega

theorem KeysAre.place_inj (hK : KeysAre w m ks h) (hx : x < 2 ^ 256) {y : Nat} (hy : y < 2 ^ 256) (h1 : h a x = some q) (h2 : h b y = some q) :
    a = b ∧ x = y := by
  obtain ⟨p, -, e1, e2⟩ := hK.place hx h1
  obtain ⟨p', -, e3, e4⟩ := hK.place hy h2
  have : p = p' := by omega
  subst this
  rw [e1] at e3
  exact (key_eq hx hy).1 e3

/-- Changing the value of a key. -/
theorem KeysAre.set_value (hK : KeysAre w m ks h) (hq1 : keyBase ≤ q) (hq3 : q % 4 = 2) : KeysAre (w.set q v) m ks h := by
  obtain ⟨hl, h1, hb, hlt, hc⟩ := hK
  have hne : ∀ i, keyBase + (3 + 1) * i + 3 ≠ q := by intro i; simp only [keyBase] at *; omega
  have hq : ∀ p ∈ ks, p ≠ q ∧ p + 1 ≠ q := by
    intro p hp
    obtain ⟨i, _, _, rfl⟩ := hl.nodes p hp
    simp only [keyBase] at *; omega
  have hkey : ∀ p ∈ ks, slotKey (w.set q v).mem p = slotKey w.mem p := fun p hp => by
    simp only [slotKey]; rw [set_ne (hq p hp).1, set_ne (hq p hp).2]
  refine ⟨hl.congr (fun i _ => set_ne (hne i)) hkey, ?_, ?_, fun p hp => ?_, hc.congr hkey fun _ _ => rfl⟩
  · rw [set_ne (by simp only [keyEnd, keyBase] at *; omega), h1]
  · rw [set_ne (by simp only [keyBase] at *; omega), hb]
  · rw [set_ne (hq p hp).1]; exact hlt p hp

/-- The cells a first access may write. -/
def AccessCell (a : Nat) : Prop := KeyCell a ∨ JourArea a

theorem AccessCell.store (ha : AccessCell a) : StoreCell a := by
  rcases ha with ha | ha
  · exact .inr (.inl ha)
  · exact .inr (.inr (.inl ha))

/-- What is recorded of a first access. -/
def coldLog (h : Nat → Nat → Option Nat) (a slot : Nat) : List (List Nat) := if h a slot = none then [[6, a, slot]] else []

theorem upd2_same (hq : h a x = some q) : upd2 h a x (some q) = h := by
  funext b y
  simp only [upd2]
  split
  · rename_i e; rw [e.1, e.2, hq]
  · rfl

/-- `%insert_accessed_storage_keys` (`asm/core/access_lists.asm:215-260`), for a right hint: whether it is the first access, and
where the original value is. -/
theorem run_access_key (hP : P.Stores) (hw : Words w) (hK : KeysAre w m ks h) (hJ : JournalIs w js) (ha : a < u256Max) (hx : x < 2 ^ 256)
    (hroom : 4 * (m + 1) ≤ 2 ^ 32) (hd : w.mem jdatLen + 3 ≤ 2 ^ 32) (hj : js.length < 2 ^ 32) (hi : KeyHint w ks a x) :
    ∃ w' q m' ks', Reaches P (.goto (P.addr "insert_accessed_storage_keys") (a :: x :: ret :: S) w)
        (.goto ret ((if h a x = none then 1 else 0) :: q :: S) w') ∧
      Words w' ∧ Shift 1 AccessCell w w' ∧ JournalIs w' (js ++ coldLog h a x) ∧ w'.mem jdatLen ≤ w.mem jdatLen + 3 ∧
      KeysAre w' m' ks' (upd2 h a x (some q)) ∧ (∀ b y q', y < 2 ^ 256 → h b y = some q' → w'.mem q' = w.mem q') ∧
      (∀ q', h a x = some q' → q' = q) ∧ m' ≤ m + 1 := by
  have hlen := hJ.len
  have hb := hK.1.ptr_bound hi.1
  obtain ⟨s', w', r1, r2⟩ := (run_insert_key (ret := ret) (S := S) hP.access hw hK ha hx hroom hd (by omega) hb.1).sure hi
  rcases r2 with ⟨q, e1, rfl, rfl⟩ | ⟨e1, rfl, e2, e3, e4, e5, ks', e6⟩
  · refine ⟨w.next, q, m, ks, ?_, hw, next_frame, ?_, Nat.le_add_right .., ?_, fun _ _ _ _ _ => rfl, fun q' hq' => ?_, by omega⟩
    · rw [if_neg (by rw [e1]; simp)]; exact r1
    · rw [coldLog, if_neg (by rw [e1]; simp), List.append_nil]; exact hJ.congr fun _ _ => rfl
    · rw [upd2_same e1]; exact hK
    · rw [e1] at hq'; exact (Option.some.inj hq').symm
  · have hcell : ∀ b, KeyCell b ∨ JourCell w 3 b → AccessCell b := by
      intro b hb
      rcases hb with hb | hb
      · exact .inl hb
      · have := hJ.data; have := hJ.fits
        refine .inr ?_
        simp only [JourArea, JourCell, jourLen, jdatLen, jourBase, jdatBase] at *
        omega
    refine ⟨w', _, m + 1, ks', ?_, e2, e4.frame1.mono hcell, ?_, ?_, e6, e5, fun q' hq' => ?_, by omega⟩
    · rw [if_pos e1]; exact r1
    · rw [coldLog, if_pos e1]
      refine hJ.logged e3 (fun b h1 h2 => e4.2.2 b ?_) hd (by omega)
      rintro (h3 | h3)
      · simp only [KeyCell, JourArea, keyEnd, keyBase, jourLen, jdatLen, jourBase, jdatBase] at *; omega
      · exact h2 h3
    · rw [e3.2.1]; simp
    · rw [e1] at hq'; cases hq'

/-! ### What the parts keep -/

/-- The cells words are put in to be hashed. -/
def ScratchCell (a : Nat) : Prop := 0x700000000 ≤ a ∧ a < 0x700000020

theorem read_scratch : Shift 1 ScratchCell w (w.read slot a) :=
  ⟨by show (w.keyed slot a).ctx = _; rw [keyed_ctx], fun j => by show (w.keyed slot a).inp (j + 1) = _; rw [keyed_inp],
    fun b hb => keyed_mem (b := b) (by simp only [ScratchCell] at hb; omega)⟩

theorem SlotsAre.frame {i : Nat} {A : Nat → Prop} (hK : SlotsAre w n qs g) (hf : Shift i A w w') (hA : ∀ b, SlotCell b → ¬ A b) : SlotsAre w' n qs g :=
  hK.congr (hf.2.2 _ (hA _ (.inl rfl))) fun b h1 h2 => hf.2.2 b (hA b (.inr ⟨h1, h2⟩))

theorem KeysAre.frame {i : Nat} {A : Nat → Prop} (hK : KeysAre w m ks h) (hf : Shift i A w w') (hA : ∀ b, KeyCell b → ¬ A b) : KeysAre w' m ks h :=
  hK.congr (hf.2.2 _ (hA _ (.inl rfl))) fun b h1 h2 => hf.2.2 b (hA b (.inr ⟨h1, h2⟩))

/-- The cells refunds change. -/
def RefundCell (a : Nat) : Prop := JourArea a ∨ a = refundCell

section
local macro "cells" : tactic => `(tactic| (
  intro b hb; simp only [SlotCell, KeyCell, AccessCell, WriteCell, RefundCell, ScratchCell, JourArea, slotNext, slotBase, keyEnd, keyBase, jourLen, jdatLen,
    jourBase, jdatBase, refundCell] at *; omega))
theorem slot_scratch : ∀ b, SlotCell b → ¬ ScratchCell b := by cells
theorem slot_access : ∀ b, SlotCell b → ¬ AccessCell b := by cells
theorem slot_refund : ∀ b, SlotCell b → ¬ RefundCell b := by cells
theorem slot_key : ∀ b, SlotCell b → ¬ KeyCell b := by cells
theorem key_scratch : ∀ b, KeyCell b → ¬ ScratchCell b := by cells
theorem key_refund : ∀ b, KeyCell b → ¬ RefundCell b := by cells
theorem key_write : ∀ b, KeyCell b → ¬ WriteCell b := by cells
theorem key_jour : ∀ b, KeyCell b → ¬ JourArea b := by cells
theorem refund_scratch : ∀ b, b = refundCell → ¬ ScratchCell b := by cells
theorem refund_access : ∀ b, b = refundCell → ¬ AccessCell b := by cells
theorem refund_write : ∀ b, b = refundCell → ¬ WriteCell b := by cells
end

theorem ScratchCell.store (ha : ScratchCell a) : StoreCell a := .inr (.inr (.inr (.inr ha)))
theorem RefundCell.store (ha : RefundCell a) : StoreCell a := ha.elim (fun h => .inr (.inr (.inl h))) (fun h => .inr (.inr (.inr (.inl h))))

/-! ### The state of storage -/

/-- Storage as the kernel keeps it: `g` the values of the slots, by the hashes of address and slot; `h` the places of the original
values of the slots accessed in this transaction, by address and slot; `js` the journal. -/
structure StorageIs (w : World) (n : Nat) (qs : List Nat) (g : Nat → Nat → Option Nat) (m : Nat) (ks : List Nat) (h : Nat → Nat → Option Nat)
    (js : List (List Nat)) : Prop where
  words : Words w
  slots : SlotsAre w n qs g
  keys : KeysAre w m ks h
  journal : JournalIs w js

/-- The original value of a slot, if the slot has been accessed. -/
def World.orig (w : World) (h : Nat → Nat → Option Nat) (a slot : Nat) : Option Nat := (h a slot).map w.mem

theorem slotOf_lt (hw : Words w) (hK : SlotsAre w n qs g) (hs : P.slotKey slot < 2 ^ 256) : World.slotOf P g a slot < 2 ^ 256 := by
  rw [World.slotOf]
  cases hg : g (P.addrKey a) (P.slotKey slot) with
  | none => simp
  | some v =>
    obtain ⟨_, _, _, _, hc⟩ := hK
    obtain ⟨p, _, _, hv⟩ := (hc (P.addrKey a * 2 ^ 256 + P.slotKey slot) v).1 (by show g _ _ = some _; rw [div_key hs, mod_key hs]; exact hg)
    rw [Option.getD_some, ← hv]
    exact hw _

/-- The room a storage instruction needs: for a slot, a key and the entries of the journal. -/
structure StorageRoom (w : World) (n m : Nat) (js : List (List Nat)) : Prop where
  slots : 5 * (n + 1) ≤ 2 ^ 32
  keys : 4 * (m + 1) ≤ 2 ^ 32
  data : w.mem jdatLen + 11 ≤ 2 ^ 32
  journal : js.length + 4 ≤ 2 ^ 32

/-- The addresses and hashes are in range. -/
structure StorageKeys (P : Prog) (w : World) (slot : Nat) : Prop where
  self : w.self < u256Max
  addr : P.addrKey w.self < u256Max
  hash : P.slotKey slot < 2 ^ 256
  slot : slot < 2 ^ 256

theorem skip_mem {i : Nat} : (w.skip i).mem = w.mem := rfl

theorem coldLog_len : (coldLog h a slot).length ≤ 1 := by simp only [coldLog]; split <;> simp

/-- Recording the original value at a first access. -/
theorem orig_record (hK : KeysAre w' m ks (upd2 h a x (some q))) (hx : x < 2 ^ 256)
    (hm : ∀ b y q', y < 2 ^ 256 → h b y = some q' → w'.mem q' = w.mem q') {y : Nat} (hy : y < 2 ^ 256) :
    (w'.set q v).orig (upd2 h a x (some q)) b y = if b = a ∧ y = x then some v else w.orig h b y := by
  simp only [World.orig]
  by_cases hb : b = a ∧ y = x
  · obtain ⟨rfl, rfl⟩ := hb
    rw [if_pos ⟨rfl, rfl⟩, upd2, if_pos ⟨rfl, rfl⟩, Option.map_some, set_same]
  · rw [if_neg hb, show upd2 h a x (some q) b y = h b y by rw [upd2, if_neg hb]]
    cases hq : h b y with
    | none => rfl
    | some q' =>
      have hne : q' ≠ q := by
        rintro rfl
        exact hb (hK.place_inj hy hx (by rw [upd2, if_neg hb]; exact hq) (by rw [upd2, if_pos ⟨rfl, rfl⟩]))
      rw [Option.map_some, Option.map_some, set_ne hne, hm b y q' hy hq]

/-! ### `SLOAD` -/

/-- `sys_sload` (`asm/mpt/storage/storage_read.asm:17-45`). -/
theorem run_sload_of (hP : P.Stores) (hS : Serving w k) (hM : StorageIs w n qs g m ks h js) (hR : StorageRoom w n m js) (hX : StorageKeys P w slot)
    (hi1 : KeyHint w ks w.self slot) (hcur : cur < 2 ^ 256)
    (hread : ∀ w1 ret S, Shift 1 AccessCell w w1 → Words w1 → SlotsAre w1 n qs g → w1.self = w.self → w1.ctx < 2 ^ 32 →
      Reaches P (.goto (P.addr "sload_current") (slot :: ret :: S) w1) (.goto ret (cur :: S) (w1.read slot w.self))) :
    (w.gasLimit < k / 2 ^ 192 + (if h w.self slot = none then 2100 else 100) ∧
      ∃ s' w', Reaches P (.goto (P.addr "sys_sload") (k :: slot :: S) w) (.goto (P.addr "fault_exception") s' w')) ∨
    (k / 2 ^ 192 + (if h w.self slot = none then 2100 else 100) ≤ w.gasLimit ∧
      ∃ w' m' ks' h', Reaches P (.goto (P.addr "sys_sload") (k :: slot :: S) w)
        (.exit (k + (if h w.self slot = none then 2100 else 100) * 2 ^ 192) (cur :: S) w') ∧
      StorageIs w' n qs g m' ks' h' (js ++ coldLog h w.self slot) ∧ m' ≤ m + 1 ∧ w'.mem jdatLen ≤ w.mem jdatLen + 3 ∧
      (∀ b y, y < 2 ^ 256 → w'.orig h' b y =
        if b = w.self ∧ y = slot then some ((w.orig h w.self slot).getD cur) else w.orig h b y) ∧
      Shift 2 StoreCell w w' ∧ w'.mem refundCell = w.mem refundCell) := by
  obtain ⟨w1, q, m', ks', r1, a1, a2, a3, a4, a5, a6, a7, a8⟩ := run_access_key (ret := P.addr "storage_read@6.after") (S := slot :: k :: S) hP hM.words hM.keys
    hM.journal hX.self hX.slot hR.keys (by have := hR.data; omega) (by have := hR.journal; omega) hi1
  have f1 : Shift 1 StoreCell w w1 := a2.mono fun _ => AccessCell.store
  have hS1 := f1.serving hS
  have hc1 := hS1.ctx
  have hs1 := f1.self
  have hl1 := f1.gasLimit
  have hK1 := hM.slots.frame a2 slot_access
  have key : Reaches P (.goto (P.addr "sys_sload") (k :: slot :: S) w) (.goto (P.addr "storage_read@6.after")
      ((if h w.self slot = none then 1 else 0) :: q :: slot :: k :: S) w1) := by
    enter hP.store in storageCode
    rw [b_sys_sload]
    kexec []
    rw [exec_address hS.ctx]
    kexec []
    exact r1
  have hcost : wadd 100 (wmul 2000 (if h w.self slot = none then 1 else 0)) = if h w.self slot = none then 2100 else 100 := by
    split <;> rfl
  obtain ⟨cost, hcost'⟩ : ∃ cost, cost = if h w.self slot = none then 2100 else 100 := ⟨_, rfl⟩
  have hcl : cost ≤ 2100 := by rw [hcost']; split <;> omega
  have key2 : Reaches P (.goto (P.addr "sys_sload") (k :: slot :: S) w)
      (if k / 2 ^ 192 + cost ≤ w.gasLimit then .goto (P.addr "sload_current") (slot :: P.addr "storage_read@7.after" ::
        (if h w.self slot = none then 1 else 0) :: q :: (k + cost * 2 ^ 192) :: S) w1
      else .goto (P.addr "fault_exception") ((k + cost * 2 ^ 192) :: (if h w.self slot = none then 1 else 0) :: q :: slot :: S) w1) := by
    refine key.trans ?_
    enter hP.store in storageCode
    rw [b_storage_read_6_after]
    kexec [m_mul_const, m_add_const]
    rw [hcost, ← hcost', exec_charge_gas hc1 (hS1.room (by omega)), hl1]
    kexec []
    exact .refl _
  rw [← hcost']
  by_cases hl : k / 2 ^ 192 + cost ≤ w.gasLimit
  · refine .inr ⟨hl, ?_⟩
    rw [if_pos hl] at key2
    have r2 := hread w1 (P.addr "storage_read@7.after") ((if h w.self slot = none then 1 else 0) :: q :: (k + cost * 2 ^ 192) :: S) a2 a1 hK1 hs1 hc1
    obtain ⟨w2, hw2⟩ : ∃ w2, w2 = w1.read slot w.self := ⟨_, rfl⟩
    have f2 : Shift 1 ScratchCell w1 w2 := hw2 ▸ read_scratch
    have hwd2 : Words w2 := hw2 ▸ (keyed_words a1 : Words (w1.keyed slot w.self))
    rw [← hw2] at r2
    have hK2 := hK1.frame f2 slot_scratch
    have hE2 := a5.frame f2 key_scratch
    have hJ2 := a3.frame f2 fun b => scratch_not_jour
    have hb := hE2.place_bound hX.slot (q := q) (a := w.self) (by rw [upd2, if_pos ⟨rfl, rfl⟩])
    have hd2 : w2.mem jdatLen = w1.mem jdatLen := f2.2.2 _ (by simp only [ScratchCell, jdatLen]; omega)
    have hr2 : w2.mem refundCell = w.mem refundCell := by rw [f2.2.2 _ (refund_scratch _ rfl), a2.2.2 _ (refund_access _ rfl)]
    have hf2 : Shift 2 StoreCell w w2 := f1.trans (f2.mono fun _ => ScratchCell.store)
    have hm2 : ∀ b y q', y < 2 ^ 256 → h b y = some q' → w2.mem q' = w.mem q' := by
      intro b y q' hy hq'
      have hb' := hM.keys.place_bound hy hq'
      rw [f2.2.2 _ (key_scratch _ (.inr ⟨hb'.1, hb'.2.1⟩)), a6 b y q' hy hq']
    by_cases hcold : h w.self slot = none
    · refine ⟨w2.set q cur, m', ks', _, ?_, ⟨hwd2.set hcur, ?_, hE2.set_value hb.1 hb.2.2, ?_⟩, a8, ?_, ?_, ?_, ?_⟩
      · refine key2.trans (r2.trans ?_)
        enter hP.store in storageCode
        rw [b_storage_read_7_after, if_pos hcold]
        kexec []
        rw [if_neg (by decide)]
        enter hP.store in storageCode
        rw [b_sload_cold_access]
        kexec []
        rw [exec_mstore_at (by simp only [keyBase] at hb; omega)]
        kexec []
        exact .refl _
      · exact hK2.congr (set_ne (by simp only [slotNext, keyBase] at *; omega)) fun b h1 h2 => set_ne (by simp only [slotBase, keyBase] at *; omega)
      · exact hJ2.congr fun b hb' => set_ne (by rintro rfl; exact key_jour _ (.inr ⟨hb.1, hb.2.1⟩) hb')
      · rw [set_ne (by simp only [jdatLen, keyBase] at *; omega)]; omega
      · intro b y hy
        rw [orig_record hE2 hX.slot hm2 hy, show w.orig h w.self slot = none by rw [World.orig, hcold]; rfl, Option.getD_none]
      · exact ⟨hf2.1, hf2.2.1, fun b hb' => by
          rw [set_ne (by rintro rfl; exact hb' (.inr (.inl (.inr ⟨hb.1, hb.2.1⟩))))]; exact hf2.2.2 b hb'⟩
      · rw [set_ne (by simp only [refundCell, keyBase] at *; omega)]; exact hr2
    · obtain ⟨q', hq'⟩ := Option.ne_none_iff_exists'.1 hcold
      have : q' = q := a7 q' hq'
      subst this
      rw [upd2_same hq'] at hE2
      refine ⟨w2, m', ks', h, ?_, ⟨hwd2, hK2, hE2, hJ2⟩, a8, by omega, ?_, hf2, hr2⟩
      · refine key2.trans (r2.trans ?_)
        enter hP.store in storageCode
        rw [b_storage_read_7_after, if_neg hcold]
        kexec []
        exact .refl _
      · intro b y hy
        have e : w2.orig h b y = w.orig h b y := by
          simp only [World.orig]
          cases hq : h b y with
          | none => rfl
          | some q'' => rw [Option.map_some, Option.map_some, hm2 b y q'' hy hq]
        rw [e]
        split
        · rename_i e'
          rw [e'.1, e'.2, World.orig, hq']; rfl
        · rfl
  · rw [if_neg hl] at key2
    exact .inl ⟨by omega, _, _, key2⟩

/-! ### `SSTORE` -/

/-- Everything a store records. -/
def storeLog (h : Nat → Nat → Option Nat) (a slot o cur v : Nat) : List (List Nat) :=
  coldLog h a slot ++ (refundWords o cur v).map ([8, ·]) ++ (if v = cur then [] else [[5, a, slot, cur]])

/-- The last part, from the point where the slot has been accessed and its original value is known. -/
theorem run_store_rest (hP : P.Stores) (hS : Serving w k) (hM : StorageIs w n qs g m ks h js) (hroom : 5 * (n + 1) ≤ 2 ^ 32)
    (hd : w.mem jdatLen + 8 ≤ 2 ^ 32) (hj : js.length + 3 ≤ 2 ^ 32) (hX : StorageKeys P w slot) (hv : v < 2 ^ 256) (hcur : cur < 2 ^ 256)
    (hx : x ≤ 2100)
    (hi : v ≠ cur → if v = 0 then SlotPred w qs (P.addrKey w.self) (P.slotKey slot) else SlotHint w qs (P.addrKey w.self) (P.slotKey slot)) :
    (w.gasLimit < k / 2 ^ 192 + (x + dirtyGas o cur v) ∧
      ∃ s' w', Reaches P (exec P b_sstore_after_cold_access_check (x :: o :: cur :: k :: slot :: v :: S) w) (.goto (P.addr "fault_exception") s' w')) ∨
    (k / 2 ^ 192 + (x + dirtyGas o cur v) ≤ w.gasLimit ∧
      ∃ w' n' qs' g', Reaches P (exec P b_sstore_after_cold_access_check (x :: o :: cur :: k :: slot :: v :: S) w)
        (.exit (k + (x + dirtyGas o cur v) * 2 ^ 192) S w') ∧
      StorageIs w' n' qs' g' m ks h (js ++ (refundWords o cur v).map ([8, ·]) ++ (if v = cur then [] else [[5, w.self, slot, cur]])) ∧ n' ≤ n + 1 ∧
      g' = (if v = cur then g else upd2 g (P.addrKey w.self) (P.slotKey slot) (if v = 0 then none else some v)) ∧
      (∀ b, KeyCell b → w'.mem b = w.mem b) ∧
      Shift (if v = cur then 0 else 1) StoreCell w w' ∧ w'.mem refundCell = (refundWords o cur v).foldl wadd (w.mem refundCell)) := by
  rcases run_sstore_gas (S := S) (slot := slot) (o := o) (cur := cur) (v := v) hP hS hM.words hM.journal (by omega) (by omega) hx with ⟨h1, h2⟩ | ⟨h1, s', h2⟩
  · refine .inr ⟨h1, ?_⟩
    have hlen := refundWords_le (o := o) (cur := cur) (v := v)
    obtain ⟨i1, i2, i3, i4, i5⟩ := refunds_spec (refundWords o cur v) w js hM.words hM.journal (by omega) (by omega) (fun y hy => refundWords_lt hy)
    obtain ⟨w1, hw1⟩ : ∃ w1, w1 = w.refunds (refundWords o cur v) := ⟨_, rfl⟩
    rw [← hw1] at i1 i2 i3 i4 i5 h2
    have f1 : Shift 0 RefundCell w w1 := i2.frame
    have f1' : Shift 0 StoreCell w w1 := f1.mono fun _ => RefundCell.store
    have hK1 := hM.slots.frame f1 slot_refund
    have hE1 := hM.keys.frame f1 key_refund
    by_cases hvc : v = cur
    · subst hvc
      refine ⟨w1, n, qs, g, h2.trans (run_store_same hP), ⟨i3, hK1, hE1, by simpa using i1⟩, by omega, by rw [if_pos rfl],
        fun b hb => f1.2.2 b (key_refund b hb), by rw [if_pos rfl]; exact f1', i5⟩
    · have hs1 : w1.self = w.self := f1'.self
      have hi1 := hi hvc
      have hi2 : if v = 0 then SlotPred w1 qs (P.addrKey w1.self) (P.slotKey slot) else SlotHint w1 qs (P.addrKey w1.self) (P.slotKey slot) := by
        rw [hs1]
        by_cases h0 : v = 0
        · rw [if_pos h0] at hi1 ⊢
          exact hi1.congr hM.slots (f1.2.1 0) fun b e1 e2 => f1.2.2 b (slot_refund b (.inr ⟨e1, e2⟩))
        · rw [if_neg h0] at hi1 ⊢
          exact hi1.congr hM.slots (f1.2.1 0) fun b e1 e2 => f1.2.2 b (slot_refund b (.inr ⟨e1, e2⟩))
      obtain ⟨w2, r1, r2, r3, r4, n', qs', r5, r6⟩ := run_store_value (k := k + (x + dirtyGas o cur v) * 2 ^ 192) (S := S) hP i3 (f1'.serving hS).ctx hK1 i1 hroom
        (by omega) (by simp; omega) (by rw [hs1]; exact hX.addr) hX.hash hX.slot hv hcur hvc hi2
      rw [hs1] at r4 r6
      refine ⟨w2, n', qs', _, h2.trans r1, ⟨r2, r6, hE1.frame r3 key_write, ?_⟩, r5, ?_, fun b hb => ?_, ?_, ?_⟩
      · rw [if_neg hvc]; exact r4
      · rw [if_neg hvc]
      · rw [r3.2.2 b (key_write b hb), f1.2.2 b (key_refund b hb)]
      · rw [if_neg hvc]; exact f1'.trans (r3.mono fun _ => WriteCell.store)
      · rw [r3.2.2 _ (refund_write _ rfl), i5]
  · exact .inl ⟨h1, s', w, h2⟩

/-- `sys_sstore` (`asm/mpt/storage/storage_write.asm:6-137`), where the checks at its start pass. -/
theorem run_sstore_of (hP : P.Stores) (hS : Serving w k) (hM : StorageIs w n qs g m ks h js) (hR : StorageRoom w n m js) (hX : StorageKeys P w slot)
    (hv : v < 2 ^ 256) (hstatic : w.mem (w.ctx * 2 ^ 64 + 0x600000008) = 0) (hgas : 2300 < w.gasLimit - k / 2 ^ 192)
    (hread : ∀ ret S, Reaches P (.goto (P.addr "sload_current") (slot :: ret :: S) w) (.goto ret (cur :: S) (w.read slot w.self))) (hi2 : KeyHint (w.skip 1) ks w.self slot)
    (ho : o = (w.orig h w.self slot).getD cur) (hcl : cur < 2 ^ 256)
    (hi3 : v ≠ cur → if v = 0 then SlotPred (w.skip 2) qs (P.addrKey w.self) (P.slotKey slot) else SlotHint (w.skip 2) qs (P.addrKey w.self) (P.slotKey slot))
    (hx : x = if h w.self slot = none then 2100 else 0) :
    (w.gasLimit < k / 2 ^ 192 + (x + dirtyGas o cur v) ∧
      ∃ s' w', Reaches P (.goto (P.addr "sys_sstore") (k :: slot :: v :: S) w) (.goto (P.addr "fault_exception") s' w')) ∨
    (k / 2 ^ 192 + (x + dirtyGas o cur v) ≤ w.gasLimit ∧
      ∃ w' n' qs' g' m' ks' h', Reaches P (.goto (P.addr "sys_sstore") (k :: slot :: v :: S) w)
        (.exit (k + (x + dirtyGas o cur v) * 2 ^ 192) S w') ∧
      StorageIs w' n' qs' g' m' ks' h' (js ++ storeLog h w.self slot o cur v) ∧ n' ≤ n + 1 ∧ m' ≤ m + 1 ∧
      g' = (if v = cur then g else upd2 g (P.addrKey w.self) (P.slotKey slot) (if v = 0 then none else some v)) ∧
      (∀ b y, y < 2 ^ 256 → w'.orig h' b y = if b = w.self ∧ y = slot then some o else w.orig h b y) ∧
      Shift (if v = cur then 2 else 3) StoreCell w w' ∧ w'.mem refundCell = (refundWords o cur v).foldl wadd (w.mem refundCell)) := by
  have hxl : x ≤ 2100 := by rw [hx]; split <;> omega
  have hRd := hR.data; have hRj := hR.journal; have hRs := hR.slots
  -- the current value
  have r1 := hread (P.addr "storage_write@1.after") (k :: slot :: v :: S)
  obtain ⟨w1, hw1⟩ : ∃ w1, w1 = w.read slot w.self := ⟨_, rfl⟩
  rw [← hw1] at r1
  have f1 : Shift 1 ScratchCell w w1 := hw1 ▸ read_scratch
  have f1' : Shift 1 StoreCell w w1 := f1.mono fun _ => ScratchCell.store
  have hwd1 : Words w1 := hw1 ▸ (keyed_words hM.words : Words (w.keyed slot w.self))
  have hd1 : w1.mem jdatLen = w.mem jdatLen := f1.2.2 _ (by simp only [ScratchCell, jdatLen]; omega)
  have hJ1 := hM.journal.frame f1 fun b => scratch_not_jour
  have hE1 := hM.keys.frame f1 key_scratch
  have hK1 := hM.slots.frame f1 slot_scratch
  -- the access
  obtain ⟨w2, q, m', ks', r2, a1, a2, a3, a4, a5, a6, a7, a8⟩ := run_access_key (ret := P.addr "storage_write@2.after") (S := cur :: k :: slot :: v :: S) hP hwd1 hE1
    hJ1 hX.self hX.slot hR.keys (by omega) (by omega) (KeyHint.congr (w := w.skip 1) hM.keys hi2 (f1.2.1 0) fun b e1 e2 => f1.2.2 b (key_scratch b (.inr ⟨e1, e2⟩)))
  have f2' : Shift 2 StoreCell w w2 := f1'.trans (a2.mono fun _ => AccessCell.store)
  have hK2 := hK1.frame a2 slot_access
  have hb := a5.place_bound hX.slot (q := q) (a := w.self) (by rw [upd2, if_pos ⟨rfl, rfl⟩])
  have hm2 : ∀ b y q', y < 2 ^ 256 → h b y = some q' → w2.mem q' = w.mem q' := by
    intro b y q' hy hq'
    have hb' := hM.keys.place_bound hy hq'
    rw [a6 b y q' hy hq', f1.2.2 _ (key_scratch _ (.inr ⟨hb'.1, hb'.2.1⟩))]
  have hr2 : w2.mem refundCell = w.mem refundCell := by rw [a2.2.2 _ (refund_access _ rfl), f1.2.2 _ (refund_scratch _ rfl)]
  have start : Reaches P (.goto (P.addr "sys_sstore") (k :: slot :: v :: S) w) (.goto (P.addr "storage_write@2.after")
      ((if h w.self slot = none then 1 else 0) :: q :: cur :: k :: slot :: v :: S) w2) := by
    enter hP.store in storageCode
    rw [b_sys_sstore]
    kexec [m_check_static]
    rw [exec_load_ctx hS.ctx (by omega), hstatic]
    kexec []
    rw [exec_leftover hS]
    kexec [m_le_const]
    rw [if_pos hgas]
    refine r1.trans ?_
    enter hP.store in storageCode
    rw [b_storage_write_1_after]
    kexec []
    rw [exec_address (f1'.serving hS).ctx, f1'.self]
    kexec []
    exact r2
  -- the original value
  obtain ⟨w3, f3, go, hM3, hO3, hr3, hd3⟩ : ∃ w3, Shift 2 StoreCell w w3 ∧
      Reaches P (.goto (P.addr "sys_sstore") (k :: slot :: v :: S) w)
        (exec P b_sstore_after_cold_access_check (x :: o :: cur :: k :: slot :: v :: S) w3) ∧
      StorageIs w3 n qs g m' ks' (upd2 h w.self slot (some q)) (js ++ coldLog h w.self slot) ∧
      (∀ b y, y < 2 ^ 256 → w3.orig (upd2 h w.self slot (some q)) b y = if b = w.self ∧ y = slot then some o else w.orig h b y) ∧
      w3.mem refundCell = w.mem refundCell ∧ w3.mem jdatLen ≤ w.mem jdatLen + 3 ∧ (∀ b, SlotCell b → w3.mem b = w.mem b) := by
    have hs2 : ∀ b, SlotCell b → w2.mem b = w.mem b := fun b hb' => by rw [a2.2.2 b (slot_access b hb'), f1.2.2 b (slot_scratch b hb')]
    by_cases hcold : h w.self slot = none
    · have hoc : o = cur := by rw [ho, World.orig, hcold]; rfl
      subst hoc
      refine ⟨w2.set q o, ⟨f2'.1, f2'.2.1, fun b hb' => ?_⟩, start.trans ?_, ⟨a1.set hcl, ?_, a5.set_value hb.1 hb.2.2, ?_⟩, fun b y hy => ?_, ?_, ?_, fun b hb' => ?_⟩
      · rw [set_ne (by rintro rfl; exact hb' (.inr (.inl (.inr ⟨hb.1, hb.2.1⟩))))]; exact f2'.2.2 b hb'
      · rw [hx, if_pos hcold, if_pos hcold]
        enter hP.store in storageCode
        rw [b_storage_write_2_after]
        kexec []
        rw [if_neg (by decide)]
        enter hP.store in storageCode
        rw [b_sstore_cold_access]
        generalize b_sstore_after_cold_access_check = t
        kexec []
        rw [exec_mstore_at (by simp only [keyBase] at hb; omega)]
        kexec []
        exact .refl _
      · exact hK2.congr (set_ne (by simp only [slotNext, keyBase] at *; omega)) fun b h1 h2 => set_ne (by simp only [slotBase, keyBase] at *; omega)
      · exact a3.congr fun b hb' => set_ne (by rintro rfl; exact key_jour _ (.inr ⟨hb.1, hb.2.1⟩) hb')
      · exact orig_record a5 hX.slot hm2 hy
      · rw [set_ne (by simp only [refundCell, keyBase] at *; omega)]; exact hr2
      · rw [set_ne (by simp only [jdatLen, keyBase] at *; omega)]; omega
      · rw [set_ne (by rintro rfl; exact slot_key _ hb' (.inr ⟨hb.1, hb.2.1⟩)), hs2 b hb']
    · obtain ⟨q', hq'⟩ := Option.ne_none_iff_exists'.1 hcold
      have : q' = q := a7 q' hq'
      subst this
      have hq2 : w2.mem q' = o := by rw [ho, World.orig, hq', Option.map_some, Option.getD_some, hm2 _ _ _ hX.slot hq']
      refine ⟨w2, f2', start.trans ?_, ⟨a1, hK2, a5, a3⟩, fun b y hy => ?_, hr2, by omega, hs2⟩
      · rw [hx, if_neg hcold, if_neg hcold]
        enter hP.store in storageCode
        rw [b_storage_write_2_after]
        kexec []
        rw [exec_mload_at (by simp only [keyBase] at hb; omega), hq2]
        kexec []
        enter hP.store in storageCode
        exact .refl _
      · rw [upd2_same hq']
        have e : w2.orig h b y = w.orig h b y := by
          simp only [World.orig]
          cases hq : h b y with
          | none => rfl
          | some q'' => rw [Option.map_some, Option.map_some, hm2 b y q'' hy hq]
        rw [e]
        split
        · rename_i e'
          rw [e'.1, e'.2, World.orig, hq', ← hq2, Option.map_some, hm2 _ _ _ hX.slot hq']
        · rfl
  have hs3 := f3.self
  have hX3 : StorageKeys P w3 slot := ⟨by rw [hs3]; exact hX.self, by rw [hs3]; exact hX.addr, hX.hash, hX.slot⟩
  have hlog := coldLog_len (h := h) (a := w.self) (slot := slot)
  have hi3' : v ≠ cur → if v = 0 then SlotPred w3 qs (P.addrKey w3.self) (P.slotKey slot) else SlotHint w3 qs (P.addrKey w3.self) (P.slotKey slot) := by
    intro hvc
    have hi := hi3 hvc
    rw [hs3]
    by_cases h0 : v = 0
    · rw [if_pos h0] at hi ⊢
      exact SlotPred.congr (w := w.skip 2) hM.slots hi (f3.2.1 0) fun b e1 e2 => hd3.2 b (.inr ⟨e1, e2⟩)
    · rw [if_neg h0] at hi ⊢
      exact SlotHint.congr (w := w.skip 2) hM.slots hi (f3.2.1 0) fun b e1 e2 => hd3.2 b (.inr ⟨e1, e2⟩)
  have hd3' := hd3.1
  rcases run_store_rest (S := S) (o := o) hP (f3.serving hS) hM3 hRs (by omega) (by rw [List.length_append]; omega) hX3 hv hcl hxl hi3' with ⟨e1, s', w', e2⟩ |
      ⟨e1, w', n', qs', g', e2, e3, e4, e5, e6, e7, e8⟩
  · rw [f3.gasLimit] at e1
    exact .inl ⟨e1, s', w', go.trans e2⟩
  · rw [f3.gasLimit] at e1
    rw [hs3] at e3 e5
    refine .inr ⟨e1, w', n', qs', g', m', ks', upd2 h w.self slot (some q), go.trans e2, ?_, e4, a8, e5, fun b y hy => ?_, ?_, by rw [e8, hr3]⟩
    · rw [storeLog, ← List.append_assoc, ← List.append_assoc]; exact e3
    · rw [← hO3 b y hy]
      simp only [World.orig]
      cases hq : upd2 h w.self slot (some q) b y with
      | none => rfl
      | some q'' =>
        have hb' := hM3.keys.place_bound hy hq
        rw [Option.map_some, Option.map_some, e6 q'' (.inr ⟨hb'.1, hb'.2.1⟩)]
    · have := f3.trans e7
      split at this <;> rename_i hvc
      · rw [if_pos hvc]; exact this
      · rw [if_neg hvc]; exact this

/-- The checks at the start of a store. -/
theorem run_sstore_refused (hP : P.Stores) (hS : Serving w k)
    (hbad : w.mem (w.ctx * 2 ^ 64 + 0x600000008) ≠ 0 ∨ w.gasLimit - k / 2 ^ 192 ≤ 2300) :
    Reaches P (.goto (P.addr "sys_sstore") (k :: slot :: v :: S) w) (.goto (P.addr "fault_exception") (k :: slot :: v :: S) w) := by
  enter hP.store in storageCode
  rw [b_sys_sstore]
  kexec [m_check_static]
  rw [exec_load_ctx hS.ctx (by omega)]
  kexec []
  rw [exec_leftover hS]
  kexec [m_le_const]
  by_cases h1 : w.mem (w.ctx * 2 ^ 64 + 0x600000008) = 0
  · rw [if_pos h1, if_neg (by have := hbad.resolve_left (fun e => e h1); omega)]
    exact .refl _
  · rw [if_neg h1]
    exact .refl _

end Verif.Kasm
