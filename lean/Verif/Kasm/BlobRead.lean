import Verif.Kasm.Type3
import Verif.Kasm.TypedClaims
import Verif.Kasm.BlobClaims

/-!
C133: reading a whole blob transaction.
-/

namespace Verif.Kasm

variable {P : Prog} {S : List Nat} {w w' w2 : World} {ret a : Nat} {l : List Nat}

/-- A blob transaction (EIP-4844): the fields of a transaction of type 2, then the most that is paid for blob gas and the hashes of the blobs. -/
structure BlobTx where
  base : TypedTx
  maxBlob : Nat
  hashes : List (List Nat)

namespace BlobTx

/-- What comes after the access list. -/
def tail (x : BlobTx) : List Nat := rlpNum x.maxBlob ++ rlpList (hashRlp x.hashes)

/-- What is signed, without the header. -/
def body (x : BlobTx) : List Nat := x.base.body ++ x.tail

/-- The transaction as it is in the block. -/
def wire (x : BlobTx) : List Nat := 3 :: rlpList (x.body ++ x.base.sig)

/-- What is signed. -/
def signed (x : BlobTx) : List Nat := 3 :: rlpList x.body

structure Ok (x : BlobTx) : Prop where
  type : x.base.type = 3
  base : { x.base with type := 2 }.Ok
  maxBlob : x.maxBlob < 2 ^ 256
  hashes : ∀ h ∈ x.hashes, HashFits h
  some : x.hashes ≠ []
  version : ∀ h ∈ x.hashes, Versioned h
  short : x.wire.length + 1 < 2 ^ 32

/-- Where the fields begin. -/
def bodyAt (x : BlobTx) : Nat := rlpStart + 1 + (rlpHeader 0xc0 (x.body ++ x.base.sig).length).length

/-- Where the access list begins. -/
def listAt (x : BlobTx) : Nat := x.bodyAt + (x.base.head ++ (rlpStr x.base.to ++ (rlpNum x.base.value ++ rlpStr x.base.data))).length

end BlobTx

variable {x : BlobTx}

theorem blob_rest (h : Rest w rlpStart x.wire) : Rest w x.bodyAt (x.body ++ x.base.sig) := by
  rw [BlobTx.wire, rlpList, ← List.singleton_append] at h
  exact h.right.right

theorem blob_body_two (hk : x.base.type = 3) : { x.base with type := 2 }.body = x.base.body := by
  simp only [TypedTx.body, TypedTx.head, TypedTx.fees, hk]
  rfl

theorem blob_wire_length : x.wire.length = 1 + (rlpHeader 0xc0 (x.body ++ x.base.sig).length).length + (x.base.body.length + x.tail.length + x.base.sig.length) := by
  rw [BlobTx.wire, List.length_cons, rlpList, List.length_append]
  simp only [BlobTx.body, List.length_append]
  omega

theorem hashRlp_bytes {hs : List (List Nat)} (hf : ∀ h ∈ hs, HashFits h) : AllBytes (hashRlp hs) := by
  intro b hb
  simp only [hashRlp, List.mem_flatMap] at hb
  obtain ⟨h, h1, h2⟩ := hb
  exact rlpStr_bytes (hf h h1).2 (by rw [(hf h h1).1]; decide) b h2

theorem blob_bytes (ht : x.Ok) : AllBytes x.body := by
  have h1 := typed_bytes ht.base
  rw [blob_body_two ht.type] at h1
  have hl := ht.short
  rw [blob_wire_length] at hl
  simp only [BlobTx.tail, rlpList, List.length_append] at hl
  refine h1.app ((rlpNum_bytes ht.maxBlob).app ?_)
  rw [rlpList]
  exact (rlpHeader_bytes (by decide) (by omega)).app (hashRlp_bytes ht.hashes)

theorem blob_data_short (ht : x.Ok) : x.base.data.length < 2 ^ 32 := typed_data_short (t := { x.base with type := 2 }) ht.base.short

/-- Up to the access list. -/
theorem run_type3_read (hP : P.Type3s) (ht : x.Ok) (hc : w.ctx = 0) (hm : HasBytes w rlpStart x.wire) :
    Reaches P (.goto (P.addr "process_type_3_txn") (rlpStart :: ret :: S) w)
      (.goto (P.addr "decode_and_store_access_list") (x.listAt :: P.addr "type_3@18.after" :: x.bodyAt :: ret :: S) (x.base.w3 w)) := by
  have hdl := blob_data_short ht
  have hshort := ht.short
  have hk := ht.type
  have hb := ht.base
  have hr : Rest w rlpStart x.wire := ⟨⟨by decide, by decide, by simp only [rlpStart]; omega⟩, hm⟩
  refine (run_type3_head (t := x.base) hP hk hr).trans ?_
  have hr0 := blob_rest hr
  change Reaches P (.goto _ (x.bodyAt :: _) _) _
  have hge : rlpStart ≤ x.bodyAt := by simp only [BlobTx.bodyAt]; omega
  rw [BlobTx.body, TypedTx.body] at hr0
  simp only [List.append_assoc] at hr0
  refine (run_type3_fees (t := x.base) hP hk hb.chain hb.nonce hb.tip hb.fee hb.gas hge hr0).trans ?_
  have hr2 := hr0.right
  have hr3 := hr2.right
  refine (run_type3_to (t := x.base) hP hb.to hb.toBytes (by omega) (rest_t1 hr2 (by omega))).trans ?_
  have hto : Rest (if x.base.to = [] then (x.base.w1 w).set 0x500000024 1 else (x.base.w1 w).set 0x900000008 (beVal x.base.to))
      (x.bodyAt + x.base.head.length + (rlpStr x.base.to).length) (rlpNum x.base.value ++ (rlpStr x.base.data ++ (rlpList x.base.access ++ (x.tail ++ x.base.sig)))) := by
    have h1 := rest_t1 (t := x.base) hr3 (by omega)
    simp only [rlpStart] at hge
    split
    · exact h1.set (by omega)
    · exact h1.set (by omega)
  refine (run_type3_data (t := x.base) hP hb.value hb.data (by split <;> exact hc) hdl (by omega) hto).trans ?_
  change Reaches P (.goto _ (_ :: _ :: _) (x.base.w3 w)) _
  rw [show x.bodyAt + x.base.head.length + (rlpStr x.base.to).length + (rlpNum x.base.value ++ rlpStr x.base.data).length = x.listAt by
    simp only [BlobTx.listAt, List.length_append]; omega]
  exact .refl _

/-- The fields of a blob transaction in memory. -/
structure BlobTx.Read (x : BlobTx) (w w' : World) : Prop where
  fields : x.base.Fields w w'
  maxBlob : w'.mem 0x90000000b = x.maxBlob
  number : w'.mem 0x500000034 = 33 * x.hashes.length
  hashes : ∀ i (hi : i < x.hashes.length), w'.mem (0x2600000000 + i) = beVal x.hashes[i]
  parity : w'.mem 0x90000000c = x.base.parity
  r : w'.mem 0x90000000d = x.base.r
  s : w'.mem 0x90000000e = x.base.s

/-- From the end of the access list, if it has been read without change to the fields and the input: the kernel stores the hashes and goes to recover the sender from
the signature over exactly `x.signed`, and the fields it will use are those of `x`. -/
theorem C133_after (hP : P.Type3s) (hB : P.Blobs) (ht : x.Ok) (hs : x.base.s < halfOrder) (hm : HasBytes w rlpStart x.wire)
    (hk : Kept (x.base.w3 w) w2) (hi : w2.inp 0 < 2 ^ 256) :
    Returns P (55 < x.body.length → w2.inp 0 = bits x.body.length)
      (.goto (P.addr "type_3@18.after") ((x.listAt + (rlpList x.base.access).length) :: x.bodyAt :: ret :: S) w2) (P.addr "ecrecover") fun s w' =>
      s = P.hash x.signed :: (27 + x.base.parity) :: x.base.r :: x.base.s :: P.addr "store_origin@type_3" :: ret :: S ∧ x.Read w w' ∧
        ∀ b, (b < 0x90000000b ∨ 0x90000000e < b) → b ≠ 0x500000034 → (b < 0x2600000000 ∨ 0x2600000000 + x.hashes.length ≤ b) →
          (b < rlpStart ∨ rlpStart + x.wire.length ≤ b) → w'.mem b = w2.mem b := by
  have hshort := ht.short
  have hp := ht.base.parity
  have hdl := blob_data_short ht
  have hge : rlpStart ≤ x.bodyAt := by simp only [BlobTx.bodyAt]; omega
  have ewire := blob_wire_length (x := x)
  have eat : x.bodyAt + (x.base.body.length + x.tail.length + x.base.sig.length) = rlpStart + x.wire.length := by simp only [BlobTx.bodyAt]; omega
  have hr : Rest w rlpStart x.wire := ⟨⟨by decide, by decide, by simp only [rlpStart]; omega⟩, hm⟩
  have hr1 := rest_t3 (t := x.base) hr (Nat.le_refl _) hdl
  have hr2 := hk.rest (Nat.le_refl _) (by simp only [rlpStart]; omega) hr1
  have hr0 := blob_rest hr2
  have ebody : x.listAt + (rlpList x.base.access).length = x.bodyAt + x.base.body.length := by
    simp only [BlobTx.listAt, TypedTx.body, List.length_append]; omega
  rw [ebody]
  have hr0' := hr0
  rw [BlobTx.body, List.append_assoc] at hr0'
  have htail := hr0'.right
  have etail : x.tail ++ x.base.sig = rlpNum x.maxBlob ++ (rlpList (hashRlp x.hashes) ++ x.base.sig) := by rw [BlobTx.tail, List.append_assoc]
  rw [etail] at htail
  obtain ⟨hpart, -, -⟩ := C130_hashes (S := x.bodyAt :: ret :: S) hB ht.maxBlob ht.hashes (by omega)
    (by rw [← etail, List.length_append]; simp only [rlpStart] at eat hge ⊢; omega) htail
  obtain ⟨w3, hgo, e3b, e3n, e3h, e3, c3, i3⟩ := hpart ht.some ht.version
  rw [← BlobTx.tail] at hgo
  refine .of hgo ?_
  have hnum : x.hashes.length < 2 ^ 32 := by
    have := hashRlp_length ht.hashes
    simp only [BlobTx.tail, rlpList, List.length_append] at ewire
    omega
  have hr3 : Rest w3 x.bodyAt (x.body ++ x.base.sig) := by
    refine ⟨hr0.1, fun i hi => ?_⟩
    simp only [BlobTx.body, List.length_append] at hi
    simp only [rlpStart] at hge eat
    rw [← hr0.2 i (by simp only [BlobTx.body, List.length_append]; exact hi), e3 _ (by omega) (by omega) (by omega)]
  have hsig : Rest w3 (x.bodyAt + x.base.body.length + x.tail.length) x.base.sig := by
    have := hr3.right
    rw [BlobTx.body, List.length_append, ← Nat.add_assoc] at this
    exact this
  refine .of (run_type3_sig (t := x.base) hP (by simp only at hp; omega) ht.base.r ht.base.s (by omega) hsig) ?_
  rw [if_pos hs]
  have hb := hr3.left
  have elen : x.body.length = x.base.body.length + x.tail.length := by rw [BlobTx.body, List.length_append]
  have hhm := rlpHeader_mono (b := 0xc0) (m := x.body.length) (n := (x.body ++ x.base.sig).length) (by rw [List.length_append]; omega)
  obtain ⟨a, ha⟩ : ∃ a, a + 1 + (rlpHeader 0xc0 x.body.length).length = x.bodyAt :=
    ⟨x.bodyAt - 1 - (rlpHeader 0xc0 x.body.length).length, by simp only [BlobTx.bodyAt]; omega⟩
  have el : (rlpList x.body).length = (rlpHeader 0xc0 x.body.length).length + x.body.length := by rw [rlpList, List.length_append]
  have hage : rlpStart ≤ a := by simp only [BlobTx.bodyAt] at ha; omega
  have hsa : Span a ((rlpList x.body).length + 1) := by
    obtain ⟨k, rfl⟩ : ∃ k, a = rlpStart + k := ⟨a - rlpStart, by omega⟩
    simp only [BlobTx.bodyAt] at ha
    exact (hr.1.later (k := k) (by omega)).le (by omega)
  have hb1 : Rest (((w3.set 0x90000000c x.base.parity).set 0x90000000d x.base.r).set 0x90000000e x.base.s) x.bodyAt x.body := by
    simp only [rlpStart] at hge
    exact ((hb.set (by omega)).set (by omega)).set (by omega)
  have hf := run_type3_finish (ret := ret) (S := S) hP hsa (by rw [ha]; exact hb1.2) (blob_bytes ht) hage (by show w3.inp 0 < _; rw [i3]; exact hi)
  rw [ha, show a + 1 + (rlpList x.body).length = x.bodyAt + x.base.body.length + x.tail.length by omega] at hf
  refine hf.mono (fun hh g => by show w3.inp 0 = _; rw [i3]; exact hh g) ?_
  rintro s w' ⟨rfl, h2, h3⟩
  have e1 : (((w3.set 0x90000000c x.base.parity).set 0x90000000d x.base.r).set 0x90000000e x.base.s).mem 0x90000000c = x.base.parity := by simp [World.set]
  have e2 : (((w3.set 0x90000000c x.base.parity).set 0x90000000d x.base.r).set 0x90000000e x.base.s).mem 0x90000000d = x.base.r := by simp [World.set]
  have e4 : (((w3.set 0x90000000c x.base.parity).set 0x90000000d x.base.r).set 0x90000000e x.base.s).mem 0x90000000e = x.base.s := by simp [World.set]
  have hage' := hage
  simp only [rlpStart] at hage' eat
  have low : ∀ b, (b < 0x90000000c ∨ 0x90000000e < b) → (b < rlpStart ∨ rlpStart + x.wire.length ≤ b) → w'.mem b = w3.mem b := fun b g1 g2 => by
    simp only [rlpStart] at g2
    rw [h3 b (by omega)]
    simp only [World.set]
    repeat rw [if_neg (by omega)]
  simp only [rlpStart] at low
  have e : ∀ b, 0x900000000 ≤ b → b < 0xb00000001 → (b < 0x90000000b ∨ 0x90000000e < b) → w'.mem b = (x.base.w3 w).mem b := fun b g1 g2 g3 => by
    rw [low b (by omega) (.inl g2), e3 b (by omega) (by omega) (by omega), hk.mem b g1 (by omega)]
  have ec : w'.mem 0x500000024 = (x.base.w3 w).mem 0x500000024 := by
    rw [low _ (by omega) (by omega), e3 _ (by omega) (by omega) (by omega), hk.create]
  have hf := fields_t3 (t := x.base) (w := w)
  refine ⟨by rw [e1, e2, e4, wadd_small (by simpa using hp), BlobTx.signed], ⟨?_, ?_, ?_, fun i hi => ?_, ?_, ?_, ?_⟩, fun b g1 g2 g3 g4 => ?_⟩
  · constructor
    case data => intro i hi'; rw [← hf.data i hi']; exact e _ (by omega) (by omega) (by omega)
    case to => intro h; rw [e _ (by decide) (by decide) (by decide), ec]; exact hf.to h
    case create => intro h; rw [e _ (by decide) (by decide) (by decide), ec]; exact hf.create h
    case ctx =>
      rw [h2]
      show w3.ctx = _
      rw [c3, hk.ctx, hf.ctx]
    case type => rw [e _ (by decide) (by decide) (by decide)]; exact hf.type
    case chainGiven => rw [e _ (by decide) (by decide) (by decide)]; exact hf.chainGiven
    case chain => rw [e _ (by decide) (by decide) (by decide)]; exact hf.chain
    case nonce => rw [e _ (by decide) (by decide) (by decide)]; exact hf.nonce
    case tip => rw [e _ (by decide) (by decide) (by decide)]; exact hf.tip
    case fee => rw [e _ (by decide) (by decide) (by decide)]; exact hf.fee
    case gas => rw [e _ (by decide) (by decide) (by decide)]; exact hf.gas
    case value => rw [e _ (by decide) (by decide) (by decide)]; exact hf.value
    case dataLen => rw [e _ (by decide) (by decide) (by decide)]; exact hf.dataLen
  · rw [low _ (by omega) (by omega), e3b]
  · rw [low _ (by omega) (by omega), e3n]
  · rw [low _ (by omega) (by omega), e3h i hi]
  · rw [h3 _ (.inl (by omega)), e1]
  · rw [h3 _ (.inl (by omega)), e2]
  · rw [h3 _ (.inl (by omega)), e4]
  · rw [low b (by omega) (by simpa only [rlpStart] using g4), e3 b (by omega) g2 g3]

/-- A signature with `s` above half the order is refused (EIP-2). -/
theorem C133_high (hP : P.Type3s) (hB : P.Blobs) (ht : x.Ok) (hs : halfOrder ≤ x.base.s) (hm : HasBytes w rlpStart x.wire) (hk : Kept (x.base.w3 w) w2) :
    Reaches P (.goto (P.addr "type_3@18.after") ((x.listAt + (rlpList x.base.access).length) :: x.bodyAt :: ret :: S) w2) .panic := by
  have hshort := ht.short
  have hp := ht.base.parity
  have hdl := blob_data_short ht
  have hge : rlpStart ≤ x.bodyAt := by simp only [BlobTx.bodyAt]; omega
  have ewire := blob_wire_length (x := x)
  have eat : x.bodyAt + (x.base.body.length + x.tail.length + x.base.sig.length) = rlpStart + x.wire.length := by simp only [BlobTx.bodyAt]; omega
  have hr : Rest w rlpStart x.wire := ⟨⟨by decide, by decide, by simp only [rlpStart]; omega⟩, hm⟩
  have hr1 := rest_t3 (t := x.base) hr (Nat.le_refl _) hdl
  have hr2 := hk.rest (Nat.le_refl _) (by simp only [rlpStart]; omega) hr1
  have hr0 := blob_rest hr2
  have ebody : x.listAt + (rlpList x.base.access).length = x.bodyAt + x.base.body.length := by
    simp only [BlobTx.listAt, TypedTx.body, List.length_append]; omega
  rw [ebody]
  have hr0' := hr0
  rw [BlobTx.body, List.append_assoc] at hr0'
  have htail := hr0'.right
  have etail : x.tail ++ x.base.sig = rlpNum x.maxBlob ++ (rlpList (hashRlp x.hashes) ++ x.base.sig) := by rw [BlobTx.tail, List.append_assoc]
  rw [etail] at htail
  obtain ⟨hpart, -, -⟩ := C130_hashes (S := x.bodyAt :: ret :: S) hB ht.maxBlob ht.hashes (by omega)
    (by rw [← etail, List.length_append]; simp only [rlpStart] at eat hge ⊢; omega) htail
  obtain ⟨w3, hgo, e3b, e3n, e3h, e3, c3, i3⟩ := hpart ht.some ht.version
  rw [← BlobTx.tail] at hgo
  refine hgo.trans ?_
  have hnum : x.hashes.length < 2 ^ 32 := by
    have := hashRlp_length ht.hashes
    simp only [BlobTx.tail, rlpList, List.length_append] at ewire
    omega
  have hr3 : Rest w3 x.bodyAt (x.body ++ x.base.sig) := by
    refine ⟨hr0.1, fun i hi => ?_⟩
    simp only [BlobTx.body, List.length_append] at hi
    simp only [rlpStart] at hge eat
    rw [← hr0.2 i (by simp only [BlobTx.body, List.length_append]; exact hi), e3 _ (by omega) (by omega) (by omega)]
  have hsig : Rest w3 (x.bodyAt + x.base.body.length + x.tail.length) x.base.sig := by
    have := hr3.right
    rw [BlobTx.body, List.length_append, ← Nat.add_assoc] at this
    exact this
  have := run_type3_sig (t := x.base) (S := x.bodyAt :: ret :: S) hP (by simp only at hp; omega) ht.base.r ht.base.s (by omega) hsig
  rw [if_neg (by omega)] at this
  exact this

end Verif.Kasm
