import Verif.Kasm.AccessLoop
import Verif.Kasm.StorageClaims

/-!
C129: what an access list makes warm, and what it costs.  With that C128 for transactions that have one.
-/

namespace Verif.Kasm

variable {P : Prog} {S : List Nat} {w w' : World} {ret a x e k : Nat} {l : List Nat} {A : Nat → Prop} {g h : Nat → Nat → Option Nat} {t : TypedTx}
  {ts : List Listing}

/-! ### The list alone -/

/-- What EIP-2930 has a list cost. -/
def listGas (ts : List Listing) : Nat := 2400 * ts.length + 1900 * keyCount ts

/-- `decode_and_store_access_list`.  Exactly the addresses and keys of the list become accessed ones, next to those that were; the gas for the
list is what the EIP says; nothing of the transaction changes; and the original value of each listed key is what storage holds, or 0 if the prover's
hints for reading storage are not right ones. -/
theorem C129_list_partial (hP : P.Lists) (hf : ∀ t ∈ ts, t.Fits P) (hT : Touched w A h g ts.length (keyCount ts)) (ha : rlpStart ≤ a)
    (hu : a + (rlpList (listRlp ts) ++ l).length ≤ 0xc00000000) (hm : Rest w a (rlpList (listRlp ts) ++ l)) (hlow : LowHints w.inp 0 ts)
    (hcost : w.mem costCell + listGas ts < 2 ^ 256) :
    Returns P (ts = [] ∨ ∃ t, ts = [t] ∧ EntryRight P A h g w t) (.goto (P.addr "decode_and_store_access_list") (a :: ret :: S) w) ret fun s w' =>
      s = (a + (rlpList (listRlp ts)).length) :: S ∧ Kept w w' ∧ w'.mem costCell = w.mem costCell + listGas ts ∧
        (∃ n ps, AddrsAre w' n ps fun b => (∃ t ∈ ts, b = beVal t.addr) ∨ A b) ∧ (∃ n qs, SlotsAre w' n qs g) ∧
        ∃ m ks h', KeysAre w' m ks h' ∧ ∀ b j, j < 2 ^ 256 →
          (Listed ts b j → ∃ v, w'.orig h' b j = some v ∧ (v = slotValue P g b j ∨ v = 0 ∧ ¬ AllRight P g w 0 ts)) ∧
          (¬ Listed ts b j → w'.orig h' b j = w.orig h b j) := by
  refine (run_access_list (e := 0) (k := 0) hP hf (by rw [Nat.zero_add, Nat.zero_add]; exact hT) ha hu hm hlow hcost).mono id ?_
  rintro s w' ⟨rfl, h', g1, g2, g3, g4⟩
  obtain ⟨n, ps, i1, -⟩ := g1.addrs
  obtain ⟨m, ks, i2, -⟩ := g1.keys
  exact ⟨rfl, g2.kept, g3, ⟨n, ps, i1⟩, g1.slots, m, ks, h', i2, g4⟩

/-- The whole claim would have the original value be that of storage for every hint. -/
def C129_statement : Prop :=
  ∀ (P : Prog) (w : World) (A : Nat → Prop) (h g : Nat → Nat → Option Nat) (a x ret : Nat) (S : List Nat), P.Lists → Touched w A h g 0 1 →
    a < u256Max → x < 2 ^ 256 → P.addrKey a < u256Max → P.slotKey x < 2 ^ 256 → keyBase ≤ 4 * w.inp 1 →
    Returns P False (.goto (P.addr "insert_accessed_storage_keys_with_original_value") (a :: x :: ret :: S) w) ret fun s w' =>
      s = S ∧ ∀ m ks h', KeysAre w' m ks h' → w'.orig h' a x = some (slotValue P g a x)

/-- If the hint for reading storage is the start of the list, the original value becomes 0, whatever storage holds. -/
theorem C129_original (hP : P.Lists) (hT : Touched w A h g e (k + 1)) (ha : a < u256Max) (hx : x < 2 ^ 256) (hlow : keyBase ≤ 4 * w.inp 1)
    (h0 : w.inp 0 = 0) (hk : KeyRight h (w.skip 1) a x) :
    ∃ w' h', Reaches P (.goto (P.addr "insert_accessed_storage_keys_with_original_value") (a :: x :: ret :: S) w) (.goto ret S w') ∧
      Touched w' A h' g e k ∧ w'.orig h' a x = some 0 := by
  obtain ⟨n, qs, hK⟩ := hT.slots
  obtain ⟨s, w', r, rfl, h', g1, -, -, g4⟩ := (run_list_mark (ret := ret) (S := S) (v := 0) hP hT ha hx (by decide) hlow).sure hk
  refine ⟨w', h', ?_, g1, by rw [g4 a x hx, if_pos ⟨rfl, rfl⟩]⟩
  enter hP.lists in accessListCode
  rw [b_insert_accessed_storage_keys_with_original_value]
  kexec []
  enter hP.lists in accessListCode
  rw [b_sload_with_addr]
  kexec []
  refine (run_store_word hP.rlps.copies (by omega) (by omega)).trans ?_
  enter hP.lists in accessListCode
  rw [b_common_decoding_11_after_mstore, exec_hash_word (by omega)]
  kexec []
  refine (run_store_word hP.rlps.copies (by omega) (by omega)).trans ?_
  enter hP.lists in accessListCode
  rw [b_common_decoding_13_after_mstore, exec_hash_word (by omega)]
  kexec []
  refine (run_search_slot_start (w := w.keyed x a) hP.list (keyed_slots hK) (by rw [keyed_inp]; exact h0)).trans ?_
  enter hP.lists in accessListCode
  rw [b_common_decoding_9_after]
  kexec []
  exact r

/-! ### The whole transaction -/

/-- The cells of the transaction. -/
def TxCell (b : Nat) : Prop := b = 0x500000024 ∨ (0x900000000 ≤ b ∧ b < 0xc00000000)

section
local macro "cells" : tactic => `(tactic| (
  intro b hb; simp only [SlotCell, KeyCell, AddrCell, JourArea, slotNext, slotBase, keyEnd, keyBase, addrEnd, addrBase,
    jourLen, jdatLen, jourBase, jdatBase, costCell, TxCell] at *; omega))
theorem slot_tx : ∀ b, SlotCell b → ¬ TxCell b := by cells
theorem key_tx : ∀ b, KeyCell b → ¬ TxCell b := by cells
theorem addr_tx : ∀ b, AddrCell b → ¬ TxCell b := by cells
theorem jour_tx : ∀ b, JourArea b → ¬ TxCell b := by cells
theorem cost_tx : ∀ b, b = costCell → ¬ TxCell b := by cells
end

theorem put_words {l : List Nat} (hw : Words w) (hl : ∀ b ∈ l, b < 2 ^ 256) : Words (w.put a l) := by
  intro b
  simp only [World.put]
  split
  · rename_i hb
    rw [List.getD_eq_getElem?_getD, List.getElem?_eq_getElem (by omega)]
    exact hl _ (List.getElem_mem _)
  · exact hw b

theorem words_t3 (ht : t.Ok) (hw : Words w) : Words (t.w3 w) := by
  have hty : t.type < 2 ^ 256 := by have := ht.type; omega
  have h1 : Words (t.w1 w) := ((((((hw.set hty).set (by decide)).set ht.chain).set ht.nonce).set ht.tip).set ht.fee).set ht.gas
  have h2 : Words (t.w2 w) := by
    simp only [TypedTx.w2]
    split
    · exact (h1.set (by decide)).set ht.value
    · exact (h1.set (beVal_word ht.toBytes (by rcases ht.to with h | h <;> simp [h]))).set ht.value
  have hd := typed_data_short ht.short
  exact put_words (h2.set (by omega)) fun b hb => Nat.lt_trans (ht.data b hb) (by decide)

theorem shift_t3 (ht : t.Ok) : Shift 0 TxCell w (t.w3 w) := by
  have hd := typed_data_short ht.short
  refine ⟨fields_t3.ctx, fun j => ?_, fun b hb => else_t3 ?_ ?_ ?_⟩
  · simp only [TypedTx.w3, TypedTx.w2]
    split <;> rfl
  all_goals simp only [TxCell] at hb; omega

theorem SlotRight.tx {p : Nat} (hf : Shift 0 TxCell w w') (hr : SlotRight P g (w.skip p) a x) : SlotRight P g (w'.skip p) a x := by
  obtain ⟨n, qs, hK, hh⟩ := hr
  exact ⟨n, qs, show SlotsAre w' n qs g from SlotsAre.frame (w := w) hK hf slot_tx,
    SlotHint.congr (w := w.skip p) hK hh (hf.2.1 _) fun b h1 h2 => hf.2.2 b (slot_tx b (.inr ⟨h1, h2⟩))⟩

theorem SlotsRight.tx (hf : Shift 0 TxCell w w') {xs : List (List Nat)} : ∀ {p : Nat}, SlotsRight P g w a p xs → SlotsRight P g w' a p xs := by
  induction xs with
  | nil => exact fun h => h
  | cons x xs ih => exact fun h => ⟨h.1.tx hf, ih h.2⟩

theorem AllRight.tx (hf : Shift 0 TxCell w w') : ∀ {p : Nat}, AllRight P g w p ts → AllRight P g w' p ts := by
  induction ts with
  | nil => exact fun h => h
  | cons t ts ih => exact fun h => ⟨h.1.tx hf, ih h.2⟩

theorem AddrHint.congr {n : Nat} {ps : List Nat} (hK : AddrsAre w n ps A) (hh : AddrHint w ps a) (hi : w'.inp 0 = w.inp 0)
    (hm : ∀ b, addrBase ≤ b → b < addrBase + 2 ^ 32 → w'.mem b = w.mem b) : AddrHint w' ps a := by
  obtain ⟨h1, h2, h3⟩ := hh
  have hr := hK.1.room
  have hb := hK.1.ptr_bound h1
  have hb2 := hK.1.ptr_bound (hK.1.next_mem h1)
  have e1 : w'.mem (2 * w.inp 0) = w.mem (2 * w.inp 0) := hm _ (by omega) (by omega)
  have e2 : w'.mem (2 * w.inp 0 + 1) = w.mem (2 * w.inp 0 + 1) := hm _ (by omega) (by omega)
  have e3 : w'.mem (w.mem (2 * w.inp 0 + 1)) = w.mem (w.mem (2 * w.inp 0 + 1)) := hm _ (by omega) (by omega)
  rw [AddrHint, hi, e1, e2, e3]
  exact ⟨h1, h2, h3⟩

theorem EntryRight.tx {y : Listing} (hf : Shift 0 TxCell w w') (hr : EntryRight P A h g w y) : EntryRight P A h g w' y := by
  obtain ⟨⟨n, ps, h1, h2⟩, h3⟩ := hr
  refine ⟨⟨n, ps, h1.frame hf addr_tx, ?_⟩, h3.imp_right ?_⟩
  · exact h2.congr h1 (hf.2.1 0) fun b k1 k2 => hf.2.2 b (addr_tx b (.inr ⟨k1, k2⟩))
  · rintro ⟨x, e, g1, m, ks, g2, g3⟩
    exact ⟨x, e, g1.tx hf, m, ks, show KeysAre w' m ks h from KeysAre.frame (w := w) g2 hf key_tx,
      KeyHint.congr (w := w.skip 2) g2 g3 (hf.2.1 _) fun b h1 h2 => hf.2.2 b (key_tx b (.inr ⟨h1, h2⟩))⟩

theorem Touched.tx (hf : Shift 0 TxCell w w') (hw : Words w') (hT : Touched w A h g e k) : Touched w' A h g e k := by
  refine ⟨hw, ?_, ?_, ?_, ?_, ?_⟩
  · obtain ⟨n, ps, h1, h2⟩ := hT.addrs
    exact ⟨n, ps, h1.frame hf addr_tx, h2⟩
  · obtain ⟨n, ps, h1, h2⟩ := hT.keys
    exact ⟨n, ps, h1.frame hf key_tx, h2⟩
  · obtain ⟨n, ps, h1⟩ := hT.slots
    exact ⟨n, ps, h1.frame hf slot_tx⟩
  · rw [hf.2.2 _ (jour_tx _ (.inr (.inl rfl)))]; exact hT.data
  · rw [hf.2.2 _ (jour_tx _ (.inl rfl))]; exact hT.jour

/-- Reading a transaction with any access list.  The prover's hints for marking addresses and keys must not be below the lists (`C105` shows what
they do otherwise); apart from that nothing they say changes what the kernel takes from the transaction and makes warm. -/
theorem C128_typed_list_partial (hP : P.Typeds) (hL : P.Lists) (ht : t.Ok) (hs : t.s < halfOrder) (he : t.access = listRlp ts) (hf : ∀ y ∈ ts, y.Fits P)
    (hc : w.ctx = 0) (hm : HasBytes w rlpStart t.wire) (hT : Touched w A h g ts.length (keyCount ts)) (hlow : LowHints w.inp 0 ts)
    (hcost : w.mem costCell + listGas ts < 2 ^ 256) (hi : w.inp (ts.length + 2 * keyCount ts) < 2 ^ 256) :
    Returns P ((ts = [] ∨ ∃ y, ts = [y] ∧ EntryRight P A h g w y) ∧ (55 < t.body.length → w.inp (ts.length + 2 * keyCount ts) = bits t.body.length))
      (.goto (P.addr t.entry) (rlpStart :: ret :: S) w) (P.addr "ecrecover") fun s w' =>
      s = P.hash t.signed :: (27 + t.parity) :: t.r :: t.s :: P.addr t.origin :: ret :: S ∧ t.Fields w w' ∧
        w'.mem 0x90000000c = t.parity ∧ w'.mem 0x90000000d = t.r ∧ w'.mem 0x90000000e = t.s ∧
        w'.mem costCell = w.mem costCell + listGas ts ∧
        (∃ n ps, AddrsAre w' n ps fun b => (∃ y ∈ ts, b = beVal y.addr) ∨ A b) ∧ (∃ n qs, SlotsAre w' n qs g) ∧
        (∃ m ks h', KeysAre w' m ks h' ∧ ∀ b j, j < 2 ^ 256 →
          (Listed ts b j → ∃ v, w'.orig h' b j = some v ∧ (v = slotValue P g b j ∨ v = 0 ∧ ¬ AllRight P g w 0 ts)) ∧
          (¬ Listed ts b j → w'.orig h' b j = w.orig h b j)) ∧
        ∀ b, b ≠ 0x500000024 → (b < 0x900000000 ∨ 0x90000000e < b) → (b < 0xa00000000 ∨ 0xa00000000 + t.data.length ≤ b) →
          (b < rlpStart ∨ rlpStart + t.wire.length ≤ b) → ¬ ListCell b → w'.mem b = w.mem b := by
  have hshort := ht.short
  have hf1 : Shift 0 TxCell w (t.w3 w) := shift_t3 ht
  have hw1 := words_t3 ht hT.words
  have hr0 : Rest w rlpStart t.wire := ⟨⟨by decide, by decide, by simp only [rlpStart]; omega⟩, hm⟩
  have hr := rest_t3 hr0 (Nat.le_refl _) (typed_data_short hshort)
  have hstart : Reaches P (.goto (P.addr t.entry) (rlpStart :: ret :: S) w)
      (.goto (P.addr "decode_and_store_access_list") (t.listAt :: P.addr t.after :: t.bodyAt :: ret :: S) (t.w3 w)) := by
    rcases ht.type with ⟨h, -⟩ | h
    · simp only [TypedTx.entry, TypedTx.after, h, if_true]
      exact run_type1_read hP.t1 ht h hc hm
    · simp only [TypedTx.entry, TypedTx.after, h]
      exact run_type2_read hP.t2 ht h hc hm
  have hl : Rest (t.w3 w) t.listAt (rlpList (listRlp ts) ++ t.sig) := by
    have hr1 := typed_rest hr
    rw [TypedTx.body, he] at hr1
    rw [show t.head ++ (rlpStr t.to ++ (rlpNum t.value ++ (rlpStr t.data ++ rlpList (listRlp ts)))) ++ t.sig
      = (t.head ++ (rlpStr t.to ++ (rlpNum t.value ++ rlpStr t.data))) ++ (rlpList (listRlp ts) ++ t.sig) by simp only [List.append_assoc]] at hr1
    exact hr1.right
  have hwire : t.listAt + (rlpList (listRlp ts) ++ t.sig).length = rlpStart + t.wire.length := by
    simp only [TypedTx.listAt, TypedTx.bodyAt, TypedTx.wire, rlpList, TypedTx.body, he, List.length_append, List.length_cons]
    omega
  have hinp : (t.w3 w).inp = w.inp := funext hf1.2.1
  have hcost1 : (t.w3 w).mem costCell = w.mem costCell := hf1.2.2 _ (cost_tx _ rfl)
  refine .of hstart ?_
  refine ((run_access_list (e := 0) (k := 0) hL hf (by rw [Nat.zero_add, Nat.zero_add]; exact hT.tx hf1 hw1)
    (by simp only [TypedTx.listAt, TypedTx.bodyAt]; omega) (by rw [hwire]; simp only [rlpStart]; omega) hl (by rw [hinp]; exact hlow)
    (by rw [hcost1]; exact hcost)).mono
    (fun hh => hh.1.imp_right fun ⟨y, h1, h2⟩ => ⟨y, h1, h2.tx hf1⟩) fun s w' hq => hq).andThen ?_
  rintro s w2 ⟨rfl, h', g1, g2, g3, g4⟩
  have hi2 : w2.inp 0 = w.inp (ts.length + 2 * keyCount ts) := by rw [g2.2.1 0, hinp, Nat.zero_add]
  have hafter := C128_after (ret := ret) (S := S) hP ht hs fields_t3 hr.2 g2.kept (by rw [hi2]; exact hi)
  rw [hi2, he] at hafter
  refine hafter.mono And.right ?_
  rintro s w' ⟨k1, k2, k3⟩
  have htx : ∀ b, ¬ TxCell b → w'.mem b = w2.mem b := fun b hb => k3.else_ b (by simp only [TxCell] at hb; omega) (by
    simp only [TxCell, rlpStart] at *; omega)
  obtain ⟨n, ps, i1, -⟩ := g1.addrs
  obtain ⟨m, ks, i2, -⟩ := g1.keys
  obtain ⟨n', qs, i3⟩ := g1.slots
  refine ⟨k1, k2, k3.parity, k3.r, k3.s, ?_, ⟨n, ps, ?_⟩, ⟨n', qs, ?_⟩, ⟨m, ks, h', ?_, ?_⟩, ?_⟩
  · rw [htx _ (cost_tx _ rfl), g3, hcost1]; rfl
  · exact i1.congr (htx _ (addr_tx _ (.inl rfl))) fun b h1 h2 => htx _ (addr_tx _ (.inr ⟨h1, h2⟩))
  · exact i3.congr (htx _ (slot_tx _ (.inl rfl))) fun b h1 h2 => htx _ (slot_tx _ (.inr ⟨h1, h2⟩))
  · exact i2.congr (htx _ (key_tx _ (.inl rfl))) fun b h1 h2 => htx _ (key_tx _ (.inr ⟨h1, h2⟩))
  · intro b j hj
    have e1 : w'.orig h' b j = w2.orig h' b j := by
      simp only [World.orig]
      cases hq : h' b j with
      | none => rfl
      | some q =>
        have := i2.place_bound hj hq
        rw [Option.map_some, Option.map_some, htx _ (key_tx _ (.inr ⟨this.1, this.2.1⟩))]
    have e2 : (t.w3 w).orig h b j = w.orig h b j := hT.orig_frame hf1 key_tx hj
    obtain ⟨a1, a2⟩ := g4 b j hj
    rw [e1]
    refine ⟨fun hh => ?_, fun hh => by rw [a2 hh, e2]⟩
    obtain ⟨v, b1, b2⟩ := a1 hh
    exact ⟨v, b1, b2.imp_right fun hh => ⟨hh.1, fun hR => hh.2 (hR.tx hf1)⟩⟩
  · intro b c1 c2 c3 c4 c5
    rw [k3.else_ b (by omega) c4, g2.2.2 b c5, else_t3 c1 c2 c3]

/-! ### Examples and the exception -/

/-- All of this code, and a place that jumps to itself. -/
def listsCode : List (String × List I) := type1Code ++ type2Code ++ accessListCode ++ rlpCode ++ accessListsCode ++ linkedListCode ++ copyCode ++
  [("here", [.push (.lab "here"), JUMP])]

/-- A kernel with it, where every address has the hash 5 and every slot the hash 6. -/
def listsProg : Prog := tableProg listsCode fun l => if l.length = 20 then 5 else if l.length = 32 then 6 else l.sum

theorem listsProg_has : listsProg.Has listsCode := tableProg_has _ _ (by decide +kernel) (by decide +kernel) (by decide +kernel)

theorem listsProg_panic : ("panic", b_panic) ∈ listsCode := by
  have : ("panic", b_panic) ∈ linkedListCode := by simp [linkedListCode]
  simp [listsCode, this]

theorem listsProg_lists : listsProg.Lists where
  rlps := ⟨tableProg_copies _ _ (by decide +kernel) (by decide +kernel) (by decide +kernel) (by simp +contextual [listsCode]),
    listsProg_has.mono (by simp +contextual [listsCode]),
    listsProg_has.mono fun p hp => by simp only [List.mem_singleton] at hp; rw [hp]; exact listsProg_panic⟩
  list := listsProg_has.mono (by simp +contextual [listsCode])
  access := listsProg_has.mono (by
    intro p hp
    rw [accessCode, List.mem_cons] at hp
    rcases hp with rfl | hp
    · exact listsProg_panic
    · simp [listsCode, hp])
  lists := listsProg_has.mono (by simp +contextual [listsCode])

theorem listsProg_typeds : listsProg.Typeds :=
  ⟨⟨listsProg_lists.rlps, listsProg_has.mono fun p hp => by simp [listsCode, hp]⟩, ⟨listsProg_lists.rlps, listsProg_has.mono fun p hp => by simp [listsCode, hp]⟩,
    listsProg_lists.lists⟩

theorem listsProg_addr (a : Nat) : listsProg.addrKey a = 5 := by
  simp [Prog.addrKey, listsProg, tableProg, wordBytes]

theorem listsProg_slot (a : Nat) : listsProg.slotKey a = 6 := by
  simp [Prog.slotKey, listsProg, tableProg, wordBytes]

/-- Address 5 and its key 6 have been accessed, the slot with the hashes 5 and 6 holds 8, and the prover's hints are `i`. -/
def listedWorld (i : Nat → Nat) : World where
  mem b := if b = addrEnd ∨ b = keyEnd ∨ (addrBase ≤ b ∧ b < keyBase + 2 ^ 32) then accMem b else listMem b
  ctx := 0
  inp := i

variable {i : Nat → Nat}

theorem listedWorld_acc {b : Nat} (h : b = addrEnd ∨ b = keyEnd ∨ (addrBase ≤ b ∧ b < keyBase + 2 ^ 32)) : (listedWorld i).mem b = accMem b := if_pos h
theorem listedWorld_list {b : Nat} (h : ¬ (b = addrEnd ∨ b = keyEnd ∨ (addrBase ≤ b ∧ b < keyBase + 2 ^ 32))) : (listedWorld i).mem b = listMem b := if_neg h

theorem listedWorld_words : Words (listedWorld i) := by
  intro b
  show (if _ then _ else _) < _
  exact ite_lt' (accWorld_words 0 b) (listWorld_words 0 b)

theorem listedWorld_addrs : AddrsAre (listedWorld i) 2 [addrBase + 2] (fun a => a = 5) :=
  (accWorld_addrs 0).congr (listedWorld_acc (.inl rfl)) fun b h1 h2 => listedWorld_acc (.inr (.inr ⟨h1, by simp only [addrBase, keyBase] at *; omega⟩))

theorem listedWorld_keys : KeysAre (listedWorld i) 2 [keyBase + 4] exKeys :=
  (accWorld_keys 0).congr (listedWorld_acc (.inr (.inl rfl))) fun b h1 h2 => listedWorld_acc (.inr (.inr ⟨by simp only [addrBase, keyBase] at *; omega, h2⟩))

theorem listedWorld_slots : SlotsAre (listedWorld i) 3 [slotBase + 5, slotBase + 10] exSlots :=
  (listWorld_slots 0).congr (listedWorld_list (by decide)) fun b h1 h2 => listedWorld_list (by
    simp only [slotBase, addrEnd, keyEnd, addrBase, keyBase] at *; omega)

theorem listedWorld_touched : Touched (listedWorld i) (fun a => a = 5) exKeys exSlots 1 1 where
  words := listedWorld_words
  addrs := ⟨2, _, listedWorld_addrs, by decide⟩
  keys := ⟨2, _, listedWorld_keys, by decide⟩
  slots := ⟨3, _, listedWorld_slots⟩
  data := by rw [listedWorld_list (by decide)]; decide
  jour := by rw [listedWorld_list (by decide)]; decide

theorem listedWorld_slotRight {p a x : Nat} (hi : i p = 2) : SlotRight listsProg exSlots ((listedWorld i).skip p) a x := by
  refine ⟨3, _, show SlotsAre (listedWorld i) 3 _ _ from listedWorld_slots, ?_⟩
  rw [listsProg_addr, listsProg_slot]
  have e1 : listMem (slotBase + 10) = 5 := by decide
  have e2 : listMem (slotBase + 10 + 1) = 6 := by decide
  have e3 : listMem (slotBase + 10 + 4) = slotBase := by decide
  have e4 : listMem slotBase = u256Max := by decide
  have hi' : ((listedWorld i).skip p).inp 0 = 2 := by show i (0 + p) = 2; rw [Nat.zero_add]; exact hi
  simp only [SlotHint, hi', slotKey, skip_mem]
  rw [listedWorld_list (b := slotBase + 5 * 2) (by decide), listedWorld_list (b := slotBase + 5 * 2 + 1) (by decide),
    listedWorld_list (b := slotBase + 5 * 2 + 4) (by decide), e1, e2, e3, listedWorld_list (b := slotBase) (by decide), e4]
  refine ⟨by simp, .inr (by omega), ?_⟩
  simp only [u256Max]; omega

theorem listedWorld_keyRight {p a x : Nat} (hi : i p = keyBase / 4 + 1) (ha : 5 < a) (ha' : a < u256Max) (hx : x < 2 ^ 256) :
    KeyRight exKeys ((listedWorld i).skip p) a x := by
  refine ⟨2, _, show KeysAre (listedWorld i) 2 _ _ from listedWorld_keys, ?_⟩
  have e0 : 4 * (keyBase / 4 + 1) = keyBase + 4 := by decide
  have e1 : accMem (keyBase + 4) = 5 := by decide
  have e2 : accMem (keyBase + 4 + 1) = 6 := by decide
  have e3 : accMem (keyBase + 4 + 3) = keyBase := by decide
  have e4 : accMem keyBase = u256Max := by decide
  have hi' : ((listedWorld i).skip p).inp 0 = keyBase / 4 + 1 := by show i (0 + p) = _; rw [Nat.zero_add]; exact hi
  simp only [KeyHint, hi', slotKey, skip_mem, e0]
  rw [listedWorld_acc (b := keyBase + 4) (by decide), listedWorld_acc (b := keyBase + 4 + 1) (by decide),
    listedWorld_acc (b := keyBase + 4 + 3) (by decide), e1, e2, e3, listedWorld_acc (b := keyBase) (by decide), e4]
  refine ⟨by simp, .inr (by omega), ?_⟩
  simp only [u256Max] at *; omega

theorem listedWorld_addrRight {a : Nat} (hi : i 0 = addrBase / 2 + 1) (ha : 5 ≤ a) (ha' : a < u256Max) : AddrRight (fun a => a = 5) (listedWorld i) a := by
  refine ⟨2, _, listedWorld_addrs, ?_⟩
  have e0 : 2 * (addrBase / 2 + 1) = addrBase + 2 := by decide
  have e1 : accMem (addrBase + 2) = 5 := by decide
  have e2 : accMem (addrBase + 2 + 1) = addrBase := by decide
  have e4 : accMem addrBase = u256Max := by decide
  have hi' : (listedWorld i).inp 0 = addrBase / 2 + 1 := hi
  simp only [AddrHint, hi', e0]
  rw [listedWorld_acc (b := addrBase + 2) (by decide), listedWorld_acc (b := addrBase + 2 + 1) (by decide), e1, e2, listedWorld_acc (b := addrBase) (by decide), e4]
  exact ⟨by simp, .inr ha, ha'⟩

theorem listsProg_here (s : List Nat) (w : World) :
    exec listsProg (listsProg.code (listsProg.addr "here")) s w = .goto (listsProg.addr "here") s w := by
  rw [(listsProg_has ("here", [.push (.lab "here"), JUMP]) (by simp [listsCode])).1]
  kexec []

/-- The hint for reading storage is the start of the list: the slot holds 8, and 0 is recorded as the original value. -/
theorem C129_violated : ¬ C129_statement := by
  intro hall
  have hk : KeyRight exKeys ((listedWorld fun n => if n = 0 then 0 else keyBase / 4 + 1).skip 1) 9 7 :=
    listedWorld_keyRight (by simp) (by omega) (by decide) (by omega)
  have hT : Touched (listedWorld fun n => if n = 0 then 0 else keyBase / 4 + 1) (fun a => a = 5) exKeys exSlots 0 1 :=
    { listedWorld_touched with
      addrs := ⟨2, _, listedWorld_addrs, by decide⟩
      data := by rw [listedWorld_list (by decide)]; decide
      jour := by rw [listedWorld_list (by decide)]; decide }
  obtain ⟨w', h', r, g1, g2⟩ := C129_original (ret := listsProg.addr "here") (S := []) listsProg_lists hT (a := 9) (x := 7) (by decide) (by decide) (by decide) rfl hk
  have hv : slotValue listsProg exSlots 9 7 = 8 := by rw [slotValue, listsProg_addr, listsProg_slot]; decide
  have h1 := hall listsProg _ _ _ exSlots 9 7 (listsProg.addr "here") [] listsProg_lists hT (by decide) (by decide) (by rw [listsProg_addr]; decide)
    (by rw [listsProg_slot]; decide) (by decide)
  obtain ⟨m, ks, hK, -⟩ := g1.keys
  have h2 := (h1.only listsProg_here r).2 m ks h' hK
  rw [g2, hv] at h2
  exact absurd h2 (by decide)

/-- An access list with the address 9 and its key 7. -/
def exList : List Listing := [⟨List.replicate 19 0 ++ [9], [List.replicate 31 0 ++ [7]]⟩]

theorem exList_fits : ∀ y ∈ exList, y.Fits listsProg := by
  intro y hy
  simp only [exList, List.mem_singleton] at hy
  subst hy
  refine ⟨rfl, by unfold AllBytes; decide, by rw [listsProg_addr]; decide, fun x hx => ?_⟩
  simp only [List.mem_singleton] at hx
  subst hx
  exact ⟨rfl, by unfold AllBytes; decide, by rw [listsProg_slot]; decide⟩

/-- The transaction of the example of C128, with this access list. -/
def txListed : TypedTx := { txTyped with access := listRlp exList }

theorem txListed_ok : txListed.Ok := { txTyped_ok with access := by unfold AllBytes; decide +kernel, short := by decide +kernel }

/-- Its access list as bytes. -/
example : rlpList txListed.access = [0xf8, 0x38, 0xf7, 0x94] ++ List.replicate 19 0 ++ [9, 0xe1, 0xa0] ++ List.replicate 31 0 ++ [7] := by decide +kernel

/-- The right hints, in turn: for the address, the slot, the key, and the length of what is signed. -/
def exHints (n : Nat) : Nat := if n = 0 then addrBase / 2 + 1 else if n = 1 then 2 else if n = 2 then keyBase / 4 + 1 else bits txListed.body.length

def txListedWorld : World := (listedWorld exHints).put rlpStart txListed.wire

theorem txListedWorld_shift : Shift 0 TxCell (listedWorld exHints) txListedWorld := by
  have := txListed_ok.short
  refine ⟨rfl, fun _ => rfl, fun b hb => ?_⟩
  simp only [txListedWorld, World.put]
  rw [if_neg (by simp only [TxCell, rlpStart] at *; omega)]

theorem txListedWorld_right : ∃ y, exList = [y] ∧ EntryRight listsProg (fun a => a = 5) exKeys exSlots txListedWorld y := by
  refine ⟨_, rfl, EntryRight.tx txListedWorld_shift ⟨?_, .inr ⟨_, rfl, ?_, ?_⟩⟩⟩
  · exact listedWorld_addrRight rfl (by decide) (by decide)
  · exact listedWorld_slotRight rfl
  · exact listedWorld_keyRight rfl (by decide) (by decide) (by decide)

/-- The theorem applies to it: the kernel reads it, the address 9 and its key 7 are warm, the original value of the slot is 8, and the list costs 4300 gas. -/
example : ∃ w' m ks h', Reaches listsProg (.goto (listsProg.addr "process_type_2_txn") [rlpStart, 77] txListedWorld)
      (.goto (listsProg.addr "ecrecover") [listsProg.hash txListed.signed, 28, txListed.r, txListed.s, listsProg.addr "store_origin@type_2", 77] w') ∧
      (∃ n ps, AddrsAre w' n ps fun b => (∃ y ∈ exList, b = beVal y.addr) ∨ b = 5) ∧ KeysAre w' m ks h' ∧ w'.orig h' 9 7 = some 8 ∧
      w'.mem costCell = 4300 ∧ w'.mem 0xa00000002 = 3 := by
  have hw : Words txListedWorld := put_words listedWorld_words fun b hb => by
    have : ∀ b ∈ txListed.wire, b < 2 ^ 256 := by decide +kernel
    exact this b hb
  have hT : Touched txListedWorld (fun a => a = 5) exKeys exSlots exList.length (keyCount exList) := listedWorld_touched.tx txListedWorld_shift hw
  have hc0 : txListedWorld.mem costCell = 0 := by
    rw [txListedWorld_shift.2.2 _ (cost_tx _ rfl), listedWorld_list (by decide)]; decide
  obtain ⟨s, w', r, rfl, h2, -, -, -, h6, h7, h8, ⟨m, ks, h', h9, h10⟩, -⟩ := (C128_typed_list_partial (t := txListed) (w := txListedWorld) (ret := 77) (S := [])
    listsProg_typeds listsProg_lists txListed_ok (by decide) rfl exList_fits rfl
    (written_put (w := listedWorld exHints) (w' := listedWorld exHints) rfl rfl).here hT ⟨by decide, ⟨by decide, trivial⟩, trivial⟩
    (by rw [hc0]; decide) (by decide +kernel)).sure ⟨.inr txListedWorld_right, fun _ => rfl⟩
  refine ⟨w', m, ks, h', r, h7, h9, ?_, by rw [h6, hc0]; decide, h2.data 2 (by decide)⟩
  obtain ⟨v, e1, e2⟩ := (h10 9 7 (by decide)).1 ⟨_, List.mem_singleton_self _, by decide, _, List.mem_singleton_self _, by decide⟩
  have hv : slotValue listsProg exSlots 9 7 = 8 := by rw [slotValue, listsProg_addr, listsProg_slot]; decide
  rw [e1]
  rcases e2 with rfl | ⟨-, e2⟩
  · rw [hv]
  · exact absurd (AllRight.tx (P := listsProg) (g := exSlots) (ts := exList) (p := 0) txListedWorld_shift ⟨⟨listedWorld_slotRight rfl, trivial⟩, trivial⟩) e2

end Verif.Kasm
