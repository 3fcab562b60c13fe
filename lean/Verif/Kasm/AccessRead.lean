import Verif.Kasm.TypedClaims
import Verif.Kasm.StorageSys

/-!
Reading an access list (`asm/transactions/common_decoding.asm:164-257`).
-/

namespace Verif.Kasm

variable {P : Prog} {S : List Nat} {w w' w0 w1 : World} {ret a x p e k : Nat} {l : List Nat} {A A' : Nat → Prop} {g h : Nat → Nat → Option Nat}
  {hon : Prop}

/-- A kernel with this code and what it calls. -/
structure Prog.Lists (P : Prog) : Prop where
  rlps : P.Rlps
  list : P.Has linkedListCode
  access : P.Has accessCode
  lists : P.Has accessListCode

/-- `@GLOBAL_METADATA_ACCESS_LIST_DATA_COST`. -/
abbrev costCell : Nat := 0x500000023

/-- The cells that may be written. -/
def ListCell (b : Nat) : Prop := AddrCell b ∨ KeyCell b ∨ JourArea b ∨ b = costCell ∨ ScratchCell b

theorem Shift.kept {i : Nat} (h : Shift i ListCell w w') : Kept w w' := by
  refine ⟨h.1, h.2.2 _ ?_, fun b h1 h2 => h.2.2 b ?_⟩ <;>
  simp only [ListCell, AddrCell, KeyCell, JourArea, ScratchCell, costCell, addrEnd, addrBase, keyEnd, keyBase, jourLen, jdatLen, jourBase, jdatBase] <;> omega

/-- The addresses `A` and the keys of `h` have been accessed, storage is `g`, and there is room for `e` more addresses and `k` more keys. -/
structure Touched (w : World) (A : Nat → Prop) (h g : Nat → Nat → Option Nat) (e k : Nat) : Prop where
  words : Words w
  addrs : ∃ n ps, AddrsAre w n ps A ∧ 2 * (n + e) ≤ 2 ^ 32
  keys : ∃ m ks, KeysAre w m ks h ∧ 4 * (m + k) ≤ 2 ^ 32
  slots : ∃ n qs, SlotsAre w n qs g
  data : w.mem jdatLen + 2 * e + 3 * k ≤ 2 ^ 32
  jour : w.mem jourLen + e + k ≤ 2 ^ 32

section
local macro "cells" : tactic => `(tactic| (
  intro b hb; simp only [SlotCell, KeyCell, AddrCell, AccessCell, ScratchCell, JourArea, JourCell, slotNext, slotBase, keyEnd, keyBase, addrEnd, addrBase,
    jourLen, jdatLen, jourBase, jdatBase, costCell, ListCell] at *; omega))
theorem slot_list : ∀ b, SlotCell b → ¬ ListCell b := by cells
theorem cost_access : ∀ b, b = costCell → ¬ AccessCell b := by cells
theorem cost_scratch : ∀ b, b = costCell → ¬ ScratchCell b := by cells
theorem addr_scratch : ∀ b, AddrCell b → ¬ ScratchCell b := by cells
theorem addr_access : ∀ b, AddrCell b → ¬ AccessCell b := by cells
end

theorem AddrsAre.frame {n i : Nat} {ps : List Nat} {B : Nat → Prop} (hK : AddrsAre w n ps A) (hf : Shift i B w w') (hA : ∀ b, AddrCell b → ¬ B b) :
    AddrsAre w' n ps A :=
  hK.congr (hf.2.2 _ (hA _ (.inl rfl))) fun b h1 h2 => hf.2.2 b (hA b (.inr ⟨h1, h2⟩))

theorem AddrsAre.iff {n : Nat} {ps : List Nat} (hK : AddrsAre w n ps A) (hA : ∀ b, A b ↔ A' b) : AddrsAre w n ps A' :=
  ⟨hK.1, hK.2.1, hK.2.2.1, hK.2.2.2.1, fun b => (hA b).symm.trans (hK.2.2.2.2 b)⟩

theorem Touched.iff (hT : Touched w A h g e k) (hA : ∀ b, A b ↔ A' b) : Touched w A' h g e k :=
  ⟨hT.words, by obtain ⟨n, ps, h1, h2⟩ := hT.addrs; exact ⟨n, ps, h1.iff hA, h2⟩, hT.keys, hT.slots, hT.data, hT.jour⟩

/-- The value of the cost changes nothing else. -/
theorem Touched.cost {v : Nat} (hT : Touched w A h g e k) (hv : v < 2 ^ 256) : Touched (w.set costCell v) A h g e k := by
  have hf : Shift 0 (fun b => b = costCell) w (w.set costCell v) := ⟨rfl, fun _ => rfl, fun b hb => set_ne hb⟩
  refine ⟨hT.words.set hv, ?_, ?_, ?_, ?_, ?_⟩
  · obtain ⟨n, ps, h1, h2⟩ := hT.addrs
    exact ⟨n, ps, h1.frame hf (by simp only [AddrCell, addrEnd, addrBase, costCell]; omega), h2⟩
  · obtain ⟨n, ps, h1, h2⟩ := hT.keys
    exact ⟨n, ps, h1.frame hf (by simp only [KeyCell, keyEnd, keyBase, costCell]; omega), h2⟩
  · obtain ⟨n, ps, h1⟩ := hT.slots
    exact ⟨n, ps, h1.frame hf (by simp only [SlotCell, slotNext, slotBase, costCell]; omega)⟩
  · rw [set_ne (by decide)]; exact hT.data
  · rw [set_ne (by decide)]; exact hT.jour

theorem Touched.orig_frame {i : Nat} {B : Nat → Prop} (hT : Touched w A h g e k) (hf : Shift i B w w') (hB : ∀ b, KeyCell b → ¬ B b) {b j : Nat}
    (hj : j < 2 ^ 256) : w'.orig h b j = w.orig h b j := by
  obtain ⟨m, ks, hK, -⟩ := hT.keys
  simp only [World.orig]
  cases hq : h b j with
  | none => rfl
  | some q =>
    have := hK.place_bound hj hq
    rw [Option.map_some, Option.map_some, hf.2.2 _ (hB _ (.inr ⟨this.1, this.2.1⟩))]

theorem jour_area {u : Nat} (h1 : w.mem jdatLen + u ≤ 2 ^ 32) (h2 : w.mem jourLen < 2 ^ 32) {b : Nat} (hb : JourCell w u b) : JourArea b := by
  simp only [JourArea, JourCell, jourLen, jdatLen, jourBase, jdatBase] at *
  omega

/-- The next hint is a right one for this address. -/
def AddrRight (A : Nat → Prop) (w : World) (a : Nat) : Prop := ∃ n ps, AddrsAre w n ps A ∧ AddrHint w ps a

/-- The next hint is a right one for this key. -/
def KeyRight (h : Nat → Nat → Option Nat) (w : World) (a x : Nat) : Prop := ∃ m ks, KeysAre w m ks h ∧ KeyHint w ks a x

/-- The next hint is a right one for this slot. -/
def SlotRight (P : Prog) (g : Nat → Nat → Option Nat) (w : World) (a x : Nat) : Prop :=
  ∃ n qs, SlotsAre w n qs g ∧ SlotHint w qs (P.addrKey a) (P.slotKey x)

theorem Touched.addr_right (hT : Touched w A h g e k) : ∃ n ps, AddrsAre w n ps A ∧ 2 * (n + e) ≤ 2 ^ 32 ∧ (AddrRight A w a → AddrHint w ps a) := by
  obtain ⟨n, ps, h1, h2⟩ := hT.addrs
  by_cases hr : AddrRight A w a
  · obtain ⟨n', ps', h3, h4⟩ := hr
    have e1 := h1.2.1
    have e2 := h3.2.1
    exact ⟨n', ps', h3, by omega, fun _ => h4⟩
  · exact ⟨n, ps, h1, h2, fun hh => absurd hh hr⟩

theorem Touched.key_right (hT : Touched w A h g e k) {i : Nat} :
    ∃ m ks, KeysAre w m ks h ∧ 4 * (m + k) ≤ 2 ^ 32 ∧ (KeyRight h (w.skip i) a x → KeyHint (w.skip i) ks a x) := by
  obtain ⟨n, ps, h1, h2⟩ := hT.keys
  by_cases hr : KeyRight h (w.skip i) a x
  · obtain ⟨n', ps', h3, h4⟩ := hr
    have e1 := h1.2.1
    have e2 : w.mem keyEnd = _ := h3.2.1
    exact ⟨n', ps', h3, by omega, fun _ => h4⟩
  · exact ⟨n, ps, h1, h2, fun hh => absurd hh hr⟩

/-- Marking an address. -/
theorem run_list_addr (hP : P.Lists) (hT : Touched w A h g (e + 1) k) (ha : a < u256Max) (hlow : addrBase ≤ 2 * w.inp 0) :
    Returns P (AddrRight A w a) (.goto (P.addr "insert_accessed_addresses") (a :: ret :: S) w) ret fun s w' =>
      (∃ c, s = c :: S) ∧ Touched w' (fun b => b = a ∨ A b) h g e k ∧ Shift 1 (fun b => AddrCell b ∨ JourArea b) w w' := by
  obtain ⟨n, ps, h1, h2, h3⟩ := hT.addr_right (a := a)
  have hd := hT.data
  have hj := hT.jour
  refine (run_insert_addr hP.access hT.words h1 ha (by omega) (by omega) (by omega) hlow).mono h3 ?_
  rintro s w' (⟨g1, rfl, rfl⟩ | ⟨g1, rfl, g2, g3, g4, ps', g5⟩)
  · refine ⟨⟨0, rfl⟩, ⟨hT.words, ⟨n, ps, ?_, by omega⟩, ?_, hT.slots, ?_, ?_⟩, next_frame⟩
    · exact AddrsAre.iff (w := w.next) (A := A) h1 fun b => ⟨.inr, fun hb => hb.elim (fun e => e ▸ g1) id⟩
    · obtain ⟨m, ks, k1, k2⟩ := hT.keys
      exact ⟨m, ks, k1, k2⟩
    · show w.mem jdatLen + _ + _ ≤ _; omega
    · show w.mem jourLen + _ + _ ≤ _; omega
  · have hf : Shift 1 (fun b => AddrCell b ∨ JourArea b) w w' :=
      g4.frame1.mono fun b hb => hb.elim .inl fun hb => .inr (jour_area (by omega) (by omega) hb)
    refine ⟨⟨1, rfl⟩, ⟨g2, ⟨n + 1, ps', g5, by omega⟩, ?_, ?_, ?_, ?_⟩, hf⟩
    · obtain ⟨m, ks, k1, k2⟩ := hT.keys
      refine ⟨m, ks, k1.frame hf ?_, k2⟩
      simp only [KeyCell, AddrCell, JourArea, keyEnd, keyBase, addrEnd, addrBase, jourLen, jdatLen, jourBase, jdatBase]; omega
    · obtain ⟨n', qs, k1⟩ := hT.slots
      refine ⟨n', qs, k1.frame hf ?_⟩
      simp only [SlotCell, AddrCell, JourArea, slotNext, slotBase, addrEnd, addrBase, jourLen, jdatLen, jourBase, jdatBase]; omega
    · rw [g3.2.1]; simp only [List.length_cons, List.length_nil]; omega
    · rw [g3.1]; omega

/-- `sload_with_addr` (`asm/transactions/common_decoding.asm:241-257`): the value of the slot, or 0 if the hint is not a right one. -/
theorem run_list_read (hP : P.Lists) (hT : Touched w A h g e k) (hha : P.addrKey a < u256Max) (hhx : P.slotKey x < 2 ^ 256) :
    Returns P (SlotRight P g w a x) (.goto (P.addr "sload_with_addr") (x :: a :: ret :: S) w) ret fun s w' =>
      w' = w.read x a ∧ ∃ v, s = v :: S ∧ (v = World.slotOf P g a x ∨ v = 0 ∧ ¬ SlotRight P g w a x) := by
  renter hP.lists in accessListCode
  rw [b_sload_with_addr]
  kexec []
  refine .of (run_store_word hP.rlps.copies (by omega) (by omega)) ?_
  renter hP.lists in accessListCode
  rw [b_common_decoding_11_after_mstore, exec_hash_word (by omega)]
  kexec []
  refine .of (run_store_word hP.rlps.copies (by omega) (by omega)) ?_
  renter hP.lists in accessListCode
  rw [b_common_decoding_13_after_mstore, exec_hash_word (by omega)]
  kexec []
  have fin : ∀ v, (v = World.slotOf P g a x ∨ v = 0 ∧ ¬ SlotRight P g w a x) →
      Returns P (SlotRight P g w a x) (.goto (P.addr "common_decoding@9.after") (v :: ret :: S) (w.read x a)) ret fun s w' =>
        w' = w.read x a ∧ ∃ v, s = v :: S ∧ (v = World.slotOf P g a x ∨ v = 0 ∧ ¬ SlotRight P g w a x) := by
    intro v hv
    renter hP.lists in accessListCode
    rw [b_common_decoding_9_after]
    kexec []
    exact .ret ⟨rfl, v, rfl, hv⟩
  by_cases hR : SlotRight P g w a x
  · obtain ⟨n, qs, hK, hh⟩ := id hR
    have hh : SlotHint (w.keyed x a) qs (P.addrKey a) (P.slotKey x) :=
      hh.congr hK (by rw [keyed_inp]) fun b h1 _ => keyed_mem (by simp only [slotBase] at h1; omega)
    exact .of (run_search_slot_honest hP.list (keyed_words hT.words) (keyed_slots hK) hha hhx rfl hh.1 hh.2.1 hh.2.2) (fin _ (.inl rfl))
  · obtain ⟨n, qs, hK⟩ := hT.slots
    refine ((run_search_slot hP.list (keyed_words hT.words) (keyed_slots hK) hha hhx).mono (fun hh => hR hh) fun s w' hq => hq).andThen ?_
    rintro s w' ⟨rfl, ⟨rfl, -⟩ | ⟨v, hv, rfl⟩⟩
    · exact fin 0 (.inr ⟨rfl, hR⟩)
    · exact fin v (.inl (by rw [World.slotOf, hv]; rfl))

/-- `asm/transactions/common_decoding.asm:230-239`: marking a key, with the value that was read for it as the original one. -/
theorem run_list_mark (hP : P.Lists) (hT : Touched w A h g e (k + 1)) (ha : a < u256Max) (hx : x < 2 ^ 256) {v : Nat} (hvl : v < 2 ^ 256)
    (hlow : keyBase ≤ 4 * w.inp 1) :
    Returns P (KeyRight h (w.skip 1) a x) (.goto (P.addr "after_read") (v :: a :: x :: ret :: S) (w.read x a)) ret fun s w' =>
      s = S ∧ ∃ h', Touched w' A h' g e k ∧ Shift 2 ListCell w w' ∧ w'.mem costCell = w.mem costCell ∧
        ∀ b j, j < 2 ^ 256 → w'.orig h' b j = if b = a ∧ j = x then some v else w.orig h b j := by
  obtain ⟨n, ps, hA, hA2⟩ := hT.addrs
  obtain ⟨m, ks, hK, hK2, hK3⟩ := hT.key_right (a := a) (x := x) (i := 1)
  obtain ⟨n', qs, hG⟩ := hT.slots
  have hd := hT.data
  have hj := hT.jour
  have f1 : Shift 1 ScratchCell w (w.read x a) := read_scratch
  have hw1 : Words (w.read x a) := (keyed_words hT.words : Words (w.keyed x a))
  generalize hw1' : w.read x a = w1 at f1 hw1 ⊢
  have hK1 := hK.frame f1 key_scratch
  have e1 : w1.mem jdatLen = w.mem jdatLen := f1.2.2 _ (by simp only [ScratchCell, jdatLen]; omega)
  have e2 : w1.mem jourLen = w.mem jourLen := f1.2.2 _ (by simp only [ScratchCell, jourLen]; omega)
  renter hP.lists in accessListCode
  rw [b_after_read]
  kexec []
  refine ((run_insert_key hP.access hw1 hK1 ha hx (by omega) (by omega) (by omega) (by rw [f1.2.1 0]; exact hlow)).mono
    (fun hh => KeyHint.congr (w := w.skip 1) hK (hK3 hh) (f1.2.1 0) fun b h1 h2 => f1.2.2 b (key_scratch b (.inr ⟨h1, h2⟩))) fun s w' hq => hq).andThen ?_
  intro s w2 hq
  have key : ∃ c q m' ks', s = c :: q :: v :: ret :: S ∧ Words w2 ∧ Shift 1 AccessCell w1 w2 ∧ w2.mem jdatLen ≤ w1.mem jdatLen + 3 ∧
      w2.mem jourLen ≤ w1.mem jourLen + 1 ∧ KeysAre w2 m' ks' (upd2 h a x (some q)) ∧
      (∀ b y q', y < 2 ^ 256 → h b y = some q' → w2.mem q' = w1.mem q') ∧ m' ≤ m + 1 := by
    rcases hq with ⟨q, g1, rfl, rfl⟩ | ⟨g1, rfl, g2, g3, g4, g5, ks', g6⟩
    · exact ⟨0, q, m, ks, rfl, hw1, next_frame, Nat.le_add_right .., Nat.le_add_right .., by rw [upd2_same g1]; exact hK1, fun _ _ _ _ _ => rfl, by omega⟩
    · refine ⟨1, _, m + 1, ks', rfl, g2, g4.frame1.mono fun b hb => hb.elim .inl fun hb => .inr (jour_area (by omega) (by omega) hb), ?_, ?_, g6, g5, by omega⟩
      · rw [g3.2.1]; simp
      · rw [g3.1]; omega
  clear hq
  obtain ⟨c, q, m', ks', rfl, a1, a2, a3, a4, a5, a6, a7⟩ := key
  have hb := a5.place_bound hx (q := q) (a := a) (by rw [upd2, if_pos ⟨rfl, rfl⟩])
  have f2 : Shift 2 ListCell w w2 := (f1.mono fun b hb => .inr (.inr (.inr (.inr hb)))).trans
    (a2.mono fun b hb => hb.elim (fun hb => .inr (.inl hb)) fun hb => .inr (.inr (.inl hb)))
  renter hP.lists in accessListCode
  rw [b_common_decoding_8_after]
  kexec []
  rw [exec_mstore_at (by simp only [keyBase] at hb; omega)]
  kexec []
  refine .ret ⟨rfl, upd2 h a x (some q), ⟨a1.set hvl, ⟨n, ps, ?_, by omega⟩, ⟨m', ks', a5.set_value hb.1 hb.2.2, by omega⟩, ⟨n', qs, ?_⟩, ?_, ?_⟩, ?_, ?_, ?_⟩
  · refine ((hA.frame f1 addr_scratch).frame a2 addr_access).congr (set_ne ?_) fun b h1 h2 => set_ne ?_ <;>
      simp only [addrEnd, addrBase, keyBase] at * <;> omega
  · refine ((hG.frame f1 slot_scratch).frame a2 slot_access).congr (set_ne ?_) fun b h1 h2 => set_ne ?_ <;>
      simp only [slotNext, slotBase, keyBase] at * <;> omega
  · rw [set_ne (by simp only [jdatLen, keyBase] at *; omega)]; omega
  · rw [set_ne (by simp only [jourLen, keyBase] at *; omega)]; omega
  · exact ⟨f2.1, f2.2.1, fun b hb' => by
      rw [set_ne (by rintro rfl; exact hb' (.inr (.inl (.inr ⟨hb.1, hb.2.1⟩))))]; exact f2.2.2 b hb'⟩
  · rw [set_ne (by simp only [costCell, keyBase] at *; omega), a2.2.2 _ (cost_access _ rfl), f1.2.2 _ (cost_scratch _ rfl)]
  · intro b j hj'
    rw [orig_record a5 hx a6 hj', hT.orig_frame f1 key_scratch hj']


/-- `asm/transactions/common_decoding.asm:227-257`: reading the value of a key and marking it. -/
theorem run_list_key (hP : P.Lists) (hT : Touched w A h g e (k + 1)) (ha : a < u256Max) (hx : x < 2 ^ 256) (hha : P.addrKey a < u256Max)
    (hhx : P.slotKey x < 2 ^ 256) (hlow : keyBase ≤ 4 * w.inp 1) :
    Returns P (SlotRight P g w a x ∧ KeyRight h (w.skip 1) a x)
      (.goto (P.addr "insert_accessed_storage_keys_with_original_value") (a :: x :: ret :: S) w) ret fun s w' =>
      s = S ∧ ∃ h' v, Touched w' A h' g e k ∧ Shift 2 ListCell w w' ∧ w'.mem costCell = w.mem costCell ∧
        (v = World.slotOf P g a x ∨ v = 0 ∧ ¬ SlotRight P g w a x) ∧
        ∀ b j, j < 2 ^ 256 → w'.orig h' b j = if b = a ∧ j = x then some v else w.orig h b j := by
  renter hP.lists in accessListCode
  rw [b_insert_accessed_storage_keys_with_original_value]
  kexec []
  refine ((run_list_read hP hT hha hhx).mono And.left fun s w' hq => hq).andThen ?_
  rintro s w1 ⟨rfl, v, rfl, hv⟩
  obtain ⟨n', qs, hG⟩ := hT.slots
  have hvl : v < 2 ^ 256 := by
    rcases hv with rfl | ⟨rfl, -⟩
    · exact slotOf_lt hT.words hG hhx
    · decide
  refine (run_list_mark hP hT ha hx hvl hlow).mono And.right ?_
  rintro s w' ⟨rfl, h', g1, g2, g3, g4⟩
  exact ⟨rfl, h', v, g1, g2, g3, hv, g4⟩

end Verif.Kasm
