import Verif.Kasm.BlobRead
import Verif.Kasm.AccessReadClaims

/-!
C133: reading a whole blob transaction, with any access list, and what is signed of it.
-/

namespace Verif.Kasm

variable {P : Prog} {S : List Nat} {w w' : World} {ret a e k : Nat} {l : List Nat} {A : Nat → Prop} {g h : Nat → Nat → Option Nat} {x : BlobTx}
  {ts : List Listing}

/-- The cells of a blob transaction. -/
def BlobCell (b : Nat) : Prop := b = 0x500000034 ∨ (0x900000000 ≤ b ∧ b < 0xc00000000) ∨ (0x2600000000 ≤ b ∧ b < 0x2700000000)

section
local macro "cells" : tactic => `(tactic| (
  intro b hb; simp only [SlotCell, KeyCell, AddrCell, slotNext, slotBase, keyEnd, keyBase, addrEnd, addrBase, costCell, BlobCell] at *; omega))
theorem slot_blob : ∀ b, SlotCell b → ¬ BlobCell b := by cells
theorem key_blob : ∀ b, KeyCell b → ¬ BlobCell b := by cells
theorem addr_blob : ∀ b, AddrCell b → ¬ BlobCell b := by cells
theorem cost_blob : ∀ b, b = costCell → ¬ BlobCell b := by cells
end

theorem words_b3 (ht : x.Ok) (hw : Words w) : Words (x.base.w3 w) := by
  have hb := ht.base
  have hty : x.base.type < 2 ^ 256 := by have := ht.type; omega
  have h1 : Words (x.base.w1 w) := ((((((hw.set hty).set (by decide)).set hb.chain).set hb.nonce).set hb.tip).set hb.fee).set hb.gas
  have h2 : Words (x.base.w2 w) := by
    simp only [TypedTx.w2]
    split
    · exact (h1.set (by decide)).set hb.value
    · exact (h1.set (beVal_word hb.toBytes (by rcases hb.to with h | h <;> simp only at h <;> simp [h]))).set hb.value
  have hd := blob_data_short ht
  exact put_words (h2.set (by omega)) fun b hb' => Nat.lt_trans (hb.data b hb') (by decide)

theorem shift_b3 (ht : x.Ok) : Shift 0 TxCell w (x.base.w3 w) := by
  have hd := blob_data_short ht
  refine ⟨fields_t3.ctx, fun j => ?_, fun b hb => else_t3 ?_ ?_ ?_⟩
  · simp only [TypedTx.w3, TypedTx.w2]
    split <;> rfl
  all_goals simp only [TxCell] at hb; omega

/-- Reading a blob transaction with any access list: the kernel goes to recover the sender from the signature over exactly what EIP-4844 says, the fields it will use, the hashes among
them, are those of the transaction, and the listed addresses and keys are warm.  The prover's hints for marking addresses and keys must not be below the lists (`C105` shows what
they do otherwise); apart from that nothing they say changes what the kernel takes from the transaction and makes warm. -/
theorem C133_partial (hP : P.Type3s) (hB : P.Blobs) (hL : P.Lists) (ht : x.Ok) (hs : x.base.s < halfOrder) (he : x.base.access = listRlp ts) (hf : ∀ y ∈ ts, y.Fits P)
    (hc : w.ctx = 0) (hm : HasBytes w rlpStart x.wire) (hT : Touched w A h g ts.length (keyCount ts)) (hlow : LowHints w.inp 0 ts)
    (hcost : w.mem costCell + listGas ts < 2 ^ 256) (hi : w.inp (ts.length + 2 * keyCount ts) < 2 ^ 256) :
    Returns P ((ts = [] ∨ ∃ y, ts = [y] ∧ EntryRight P A h g w y) ∧ (55 < x.body.length → w.inp (ts.length + 2 * keyCount ts) = bits x.body.length))
      (.goto (P.addr "process_type_3_txn") (rlpStart :: ret :: S) w) (P.addr "ecrecover") fun s w' =>
      s = P.hash x.signed :: (27 + x.base.parity) :: x.base.r :: x.base.s :: P.addr "store_origin@type_3" :: ret :: S ∧ x.Read w w' ∧
        w'.mem costCell = w.mem costCell + listGas ts ∧
        (∃ n ps, AddrsAre w' n ps fun b => (∃ y ∈ ts, b = beVal y.addr) ∨ A b) ∧ (∃ n qs, SlotsAre w' n qs g) ∧
        (∃ m ks h', KeysAre w' m ks h' ∧ ∀ b j, j < 2 ^ 256 →
          (Listed ts b j → ∃ v, w'.orig h' b j = some v ∧ (v = slotValue P g b j ∨ v = 0 ∧ ¬ AllRight P g w 0 ts)) ∧
          (¬ Listed ts b j → w'.orig h' b j = w.orig h b j)) ∧
        ∀ b, b ≠ 0x500000024 → b ≠ 0x500000034 → (b < 0x2600000000 ∨ 0x2600000000 + x.hashes.length ≤ b) → (b < 0x900000000 ∨ 0x90000000e < b) → (b < 0xa00000000 ∨ 0xa00000000 + x.base.data.length ≤ b) →
          (b < rlpStart ∨ rlpStart + x.wire.length ≤ b) → ¬ ListCell b → w'.mem b = w.mem b := by
  have hshort := ht.short
  have hf1 : Shift 0 TxCell w (x.base.w3 w) := shift_b3 ht
  have hw1 := words_b3 ht hT.words
  have hr0 : Rest w rlpStart x.wire := ⟨⟨by decide, by decide, by simp only [rlpStart]; omega⟩, hm⟩
  have hr := rest_t3 hr0 (Nat.le_refl _) (blob_data_short ht)
  have hstart : Reaches P (.goto (P.addr "process_type_3_txn") (rlpStart :: ret :: S) w)
      (.goto (P.addr "decode_and_store_access_list") (x.listAt :: P.addr "type_3@18.after" :: x.bodyAt :: ret :: S) (x.base.w3 w)) :=
    run_type3_read hP ht hc hm
  have hl : Rest (x.base.w3 w) x.listAt (rlpList (listRlp ts) ++ (x.tail ++ x.base.sig)) := by
    have hr1 := blob_rest hr
    rw [BlobTx.body, TypedTx.body, he] at hr1
    rw [show x.base.head ++ (rlpStr x.base.to ++ (rlpNum x.base.value ++ (rlpStr x.base.data ++ rlpList (listRlp ts)))) ++ x.tail ++ x.base.sig
      = (x.base.head ++ (rlpStr x.base.to ++ (rlpNum x.base.value ++ rlpStr x.base.data))) ++ (rlpList (listRlp ts) ++ (x.tail ++ x.base.sig)) by
        simp only [List.append_assoc]] at hr1
    exact hr1.right
  have hwire : x.listAt + (rlpList (listRlp ts) ++ (x.tail ++ x.base.sig)).length = rlpStart + x.wire.length := by
    rw [blob_wire_length]
    simp only [BlobTx.listAt, BlobTx.bodyAt, TypedTx.body, he, List.length_append]
    omega
  have hinp : (x.base.w3 w).inp = w.inp := funext hf1.2.1
  have hcost1 : (x.base.w3 w).mem costCell = w.mem costCell := hf1.2.2 _ (cost_tx _ rfl)
  refine .of hstart ?_
  refine ((run_access_list (e := 0) (k := 0) hL hf (by rw [Nat.zero_add, Nat.zero_add]; exact hT.tx hf1 hw1)
    (by simp only [BlobTx.listAt, BlobTx.bodyAt]; omega) (by rw [hwire]; simp only [rlpStart]; omega) hl (by rw [hinp]; exact hlow)
    (by rw [hcost1]; exact hcost)).mono
    (fun hh => hh.1.imp_right fun ⟨y, h1, h2⟩ => ⟨y, h1, h2.tx hf1⟩) fun s w' hq => hq).andThen ?_
  rintro s w2 ⟨rfl, h', g1, g2, g3, g4⟩
  have hi2 : w2.inp 0 = w.inp (ts.length + 2 * keyCount ts) := by rw [g2.2.1 0, hinp, Nat.zero_add]
  have hafter := C133_after (ret := ret) (S := S) hP hB ht hs hm g2.kept (by rw [hi2]; exact hi)
  rw [hi2, he] at hafter
  refine hafter.mono And.right ?_
  rintro s w' ⟨k1, k2, k3⟩
  have hnum : x.hashes.length < 2 ^ 32 := by
    have h1 := hashRlp_length ht.hashes
    have h2 := blob_wire_length (x := x)
    simp only [BlobTx.tail, rlpList, List.length_append] at h2
    omega
  have htx : ∀ b, ¬ BlobCell b → w'.mem b = w2.mem b := fun b hb => by
    simp only [BlobCell] at hb
    exact k3 b (by omega) (by omega) (by omega) (by simp only [rlpStart]; omega)
  obtain ⟨n, ps, i1, -⟩ := g1.addrs
  obtain ⟨m, ks, i2, -⟩ := g1.keys
  obtain ⟨n', qs, i3⟩ := g1.slots
  refine ⟨k1, k2, ?_, ⟨n, ps, ?_⟩, ⟨n', qs, ?_⟩, ⟨m, ks, h', ?_, ?_⟩, ?_⟩
  · rw [htx _ (cost_blob _ rfl), g3, hcost1]; rfl
  · exact i1.congr (htx _ (addr_blob _ (.inl rfl))) fun b h1 h2 => htx _ (addr_blob _ (.inr ⟨h1, h2⟩))
  · exact i3.congr (htx _ (slot_blob _ (.inl rfl))) fun b h1 h2 => htx _ (slot_blob _ (.inr ⟨h1, h2⟩))
  · exact i2.congr (htx _ (key_blob _ (.inl rfl))) fun b h1 h2 => htx _ (key_blob _ (.inr ⟨h1, h2⟩))
  · intro b j hj
    have e1 : w'.orig h' b j = w2.orig h' b j := by
      simp only [World.orig]
      cases hq : h' b j with
      | none => rfl
      | some q =>
        have := i2.place_bound hj hq
        rw [Option.map_some, Option.map_some, htx _ (key_blob _ (.inr ⟨this.1, this.2.1⟩))]
    have e2 : (x.base.w3 w).orig h b j = w.orig h b j := hT.orig_frame hf1 key_tx hj
    obtain ⟨a1, a2⟩ := g4 b j hj
    rw [e1]
    refine ⟨fun hh => ?_, fun hh => by rw [a2 hh, e2]⟩
    obtain ⟨v, b1, b2⟩ := a1 hh
    exact ⟨v, b1, b2.imp_right fun hh => ⟨hh.1, fun hR => hh.2 (hR.tx hf1)⟩⟩
  · intro b c1 c6 c7 c2 c3 c4 c5
    rw [k3 b (by omega) c6 c7 c4, g2.2.2 b c5, else_t3 c1 c2 c3]

/-! ### What is signed determines the transaction -/

theorem hashRlp_inj : ∀ {xs ys : List (List Nat)}, hashRlp xs = hashRlp ys → xs = ys := by
  have ne : ∀ {s y : List Nat}, rlpStr s ++ y ≠ [] := fun {s y} h => by
    rcases rlpStr_cases s with ⟨b, -, -, e⟩ | e
    · rw [e] at h; cases h
    · obtain ⟨b, z, e', -⟩ := rlpHeader_head (b := 0x80) (n := s.length)
      rw [e, e'] at h; cases h
  intro xs
  induction xs with
  | nil =>
    intro ys h
    cases ys with
    | nil => rfl
    | cons y ys => simp only [hashRlp, List.flatMap_cons, List.flatMap_nil] at h; exact absurd h.symm ne
  | cons x xs ih =>
    intro ys h
    cases ys with
    | nil => simp only [hashRlp, List.flatMap_cons, List.flatMap_nil] at h; exact absurd h ne
    | cons y ys =>
      simp only [hashRlp, List.flatMap_cons] at h
      obtain ⟨h1, h2⟩ := rlpStr_prefix h
      rw [h1, ih h2]

/-- Two blob transactions with the same signed bytes agree in all but the signature. -/
theorem C133_binding {y : BlobTx} (hx : x.Ok) (hy : y.Ok) (h : x.signed = y.signed) :
    { x with base := { x.base with parity := y.base.parity, r := y.base.r, s := y.base.s } } = y := by
  have h := (List.cons.inj h).2
  have h := (rlpHeader_prefix h).2
  rw [BlobTx.body, BlobTx.body, ← blob_body_two hx.type, ← blob_body_two hy.type] at h
  obtain ⟨⟨h1, h2, h3, h4, h5, h6, h7, h8, h9⟩, g⟩ := typed_prefix hx.base hy.base rfl h
  simp only [BlobTx.tail] at g
  obtain ⟨g1, g⟩ := rlpNum_prefix g
  have g2 := hashRlp_inj (rlpHeader_prefix g).2
  have hk := hx.type.trans hy.type.symm
  obtain ⟨⟨k, c, n, ti, f, g, to, v, d, acc, p, r, s⟩, m, hs⟩ := x
  obtain ⟨⟨k', c', n', ti', f', g', to', v', d', acc', p', r', s'⟩, m', hs'⟩ := y
  simp only at hk h1 h2 h3 h4 h5 h6 h7 h8 h9 g1 g2
  subst hk h1 h2 h3 h4 h5 h6 h7 h8 h9 g1 g2
  rfl

/-- What is signed for a blob transaction is signed for no transaction of types 0, 1 and 2. -/
theorem C133_kinds {t : TypedTx} {u : LegacyTx} (ht : t.Ok) : x.signed ≠ t.signed ∧ x.signed ≠ u.signed := by
  refine ⟨fun h => ?_, fun h => ?_⟩
  · have := (List.cons.inj h).1
    have := ht.type
    omega
  · rw [signed_inner] at h
    obtain ⟨b, y, e, hb'⟩ := rlpHeader_head (b := 0xc0) (n := u.inner.length)
    rw [BlobTx.signed, rlpList.eq_def u.inner, e, List.cons_append] at h
    have := (List.cons.inj h).1
    omega

/-! ### An example -/

def blobReadCode : List (String × List I) :=
  type3Code ++ accessListCode ++ rlpCode ++ accessListsCode ++ transferCode ++ touchedCode ++ stateReadCode ++ linkedListCode ++ copyCode

def blobReadProg : Prog := tableProg blobReadCode List.sum

theorem blobReadProg_has : blobReadProg.Has blobReadCode := tableProg_has _ _ (by decide +kernel) (by decide +kernel) (by decide +kernel)

theorem blobReadProg_panic : ("panic", b_panic) ∈ blobReadCode := by
  have : ("panic", b_panic) ∈ linkedListCode := by simp [linkedListCode]
  simp [blobReadCode, this]

theorem blobReadProg_rlps : blobReadProg.Rlps :=
  ⟨tableProg_copies _ _ (by decide +kernel) (by decide +kernel) (by decide +kernel) (by simp +contextual [blobReadCode]),
    blobReadProg_has.mono (by simp +contextual [blobReadCode]),
    blobReadProg_has.mono fun p hp => by simp only [List.mem_singleton] at hp; rw [hp]; exact blobReadProg_panic⟩

theorem blobReadProg_type3 : blobReadProg.Type3s := ⟨blobReadProg_rlps, blobReadProg_has.mono (by simp +contextual [blobReadCode])⟩

theorem blobReadProg_blobs : blobReadProg.Blobs where
  rlps := blobReadProg_rlps
  has := blobReadProg_has.mono (by simp +contextual [blobReadCode])
  lists := blobReadProg_has.mono (by simp +contextual [blobReadCode])
  pays := ⟨⟨blobReadProg_rlps.1, blobReadProg_has.mono (by simp +contextual [blobReadCode]), blobReadProg_has.mono (by simp +contextual [blobReadCode])⟩,
    blobReadProg_has.mono (by simp +contextual [blobReadCode]), blobReadProg_has.mono (by simp +contextual [blobReadCode])⟩

theorem blobReadProg_lists : blobReadProg.Lists where
  rlps := blobReadProg_rlps
  list := blobReadProg_has.mono (by simp +contextual [blobReadCode])
  access := blobReadProg_has.mono (by
    intro p hp
    rw [accessCode, List.mem_cons] at hp
    rcases hp with rfl | hp
    · exact blobReadProg_panic
    · simp [blobReadCode, hp])
  lists := blobReadProg_has.mono (by simp +contextual [blobReadCode])

/-- The transaction of the example of C128, as one with two blobs. -/
def txBlobs : BlobTx := ⟨{ txTyped with type := 3 }, 9, [exHash 1, exHash 1]⟩

theorem txBlobs_ok : txBlobs.Ok where
  type := rfl
  base := txTyped_ok
  maxBlob := by decide
  hashes h hh := by
    simp only [txBlobs, List.mem_cons, List.not_mem_nil, or_false, or_self] at hh
    rw [hh]; exact exHash_fits (by decide)
  some := by simp [txBlobs]
  version := by simp [txBlobs, Versioned, exHash]
  short := by decide +kernel

def txBlobsWorld : World := (listedWorld fun _ => bits txBlobs.body.length).put rlpStart txBlobs.wire

theorem txBlobsWorld_shift : Shift 0 TxCell (listedWorld fun _ => bits txBlobs.body.length) txBlobsWorld := by
  have := txBlobs_ok.short
  refine ⟨rfl, fun _ => rfl, fun b hb => ?_⟩
  simp only [txBlobsWorld, World.put]
  rw [if_neg (by simp only [TxCell, rlpStart] at *; omega)]

/-- The theorem applies to it: the kernel reads it and looks for its sender; both hashes are stored. -/
example : ∃ w', Reaches blobReadProg (.goto (blobReadProg.addr "process_type_3_txn") [rlpStart, 77] txBlobsWorld)
      (.goto (blobReadProg.addr "ecrecover") [txBlobs.signed.sum, 28, txTyped.r, txTyped.s, blobReadProg.addr "store_origin@type_3", 77] w') ∧
      w'.mem 0x900000000 = 3 ∧ w'.mem 0x90000000b = 9 ∧ w'.mem 0x500000034 = 66 ∧ w'.mem 0x2600000001 = beVal (exHash 1) ∧ w'.mem 0xa00000002 = 3 := by
  have hw : Words txBlobsWorld := put_words listedWorld_words fun b hb => by
    have : ∀ b ∈ txBlobs.wire, b < 2 ^ 256 := by decide +kernel
    exact this b hb
  have hT : Touched txBlobsWorld (fun a => a = 5) exKeys exSlots 1 1 := listedWorld_touched.tx txBlobsWorld_shift hw
  have hT0 : Touched txBlobsWorld (fun a => a = 5) exKeys exSlots ([] : List Listing).length (keyCount []) := by
    obtain ⟨h1, ⟨n, ps, h2, h3⟩, ⟨m, ks, h4, h5⟩, h6, h7, h8⟩ := hT
    refine ⟨h1, ⟨n, ps, h2, ?_⟩, ⟨m, ks, h4, ?_⟩, h6, ?_, ?_⟩ <;> simp only [keyCount, List.length_nil, List.map_nil, List.sum_nil] <;> omega
  have hc0 : txBlobsWorld.mem costCell = 0 := by
    rw [txBlobsWorld_shift.2.2 _ (cost_tx _ rfl), listedWorld_list (by decide)]; decide
  obtain ⟨s, w', r, rfl, h2, -⟩ := (C133_partial (x := txBlobs) (w := txBlobsWorld) (ts := []) (ret := 77) (S := []) blobReadProg_type3 blobReadProg_blobs
    blobReadProg_lists txBlobs_ok (by decide) rfl nofun rfl (written_put (w := listedWorld _) (w' := listedWorld _) rfl rfl).here hT0 trivial
    (by rw [hc0]; decide) (by decide +kernel)).sure ⟨.inl rfl, fun _ => rfl⟩
  exact ⟨w', r, h2.fields.type, h2.maxBlob, h2.number, h2.hashes 1 (by decide), h2.fields.data 2 (by decide)⟩

end Verif.Kasm
