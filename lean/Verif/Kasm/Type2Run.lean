import Verif.Kasm.Type2

/-!
Reading a whole transaction of type 2, before and after its access list.
-/

namespace Verif.Kasm

variable {P : Prog} {S : List Nat} {w w' : World} {ret : Nat} {t : TypedTx}

/-- Up to the access list. -/
theorem run_type2_read (hP : P.Type2s) (ht : t.Ok) (hk : t.type = 2) (hc : w.ctx = 0) (hm : HasBytes w rlpStart t.wire) :
    Reaches P (.goto (P.addr "process_type_2_txn") (rlpStart :: ret :: S) w)
      (.goto (P.addr "decode_and_store_access_list") (t.listAt :: P.addr "type_2@18.after" :: t.bodyAt :: ret :: S) (t.w3 w)) := by
  have hdl := typed_data_short ht.short
  have hshort := ht.short
  have hr : Rest w rlpStart t.wire := ⟨⟨by decide, by decide, by simp only [rlpStart]; omega⟩, hm⟩
  refine (run_type2_head hP hk hr).trans ?_
  have hr0 := typed_rest hr
  change Rest w t.bodyAt _ at hr0
  change Reaches P (.goto _ (t.bodyAt :: _) _) _
  have hge : rlpStart ≤ t.bodyAt := by simp only [TypedTx.bodyAt]; omega
  rw [TypedTx.body] at hr0
  simp only [List.append_assoc] at hr0
  refine (run_type2_fees hP hk ht.chain ht.nonce ht.tip ht.fee ht.gas hge hr0).trans ?_
  have hr2 := hr0.right
  have hr3 := hr2.right
  refine (run_type2_to hP ht.to ht.toBytes (by omega) (rest_t1 hr2 (by omega))).trans ?_
  have hto : Rest (if t.to = [] then (t.w1 w).set 0x500000024 1 else (t.w1 w).set 0x900000008 (beVal t.to))
      (t.bodyAt + t.head.length + (rlpStr t.to).length) (rlpNum t.value ++ (rlpStr t.data ++ (rlpList t.access ++ t.sig))) := by
    have h1 := rest_t1 (t := t) hr3 (by omega)
    simp only [rlpStart] at hge
    split
    · exact h1.set (by omega)
    · exact h1.set (by omega)
  refine (run_type2_data hP ht.value ht.data (by split <;> exact hc) hdl (by omega) hto).trans ?_
  change Reaches P (.goto _ (_ :: _ :: _) (t.w3 w)) _
  rw [show t.bodyAt + t.head.length + (rlpStr t.to).length + (rlpNum t.value ++ rlpStr t.data).length = t.listAt by
    simp only [TypedTx.listAt, List.length_append]; omega]
  exact .refl _

/-- A recipient that is no address, and not empty. -/
theorem run_type2_refused (hP : P.Type2s) (hk : t.type = 2) (hch : t.chain < 2 ^ 256) (hn : t.nonce < 2 ^ 256) (hp : t.tip < 2 ^ 256) (hf : t.fee < 2 ^ 256)
    (hg : t.gas < 2 ^ 256) (h0 : t.to.length ≠ 0) (h20 : t.to.length ≠ 20) (hshort : t.wire.length + 1 < 2 ^ 32) (hm : HasBytes w rlpStart t.wire) :
    ∃ s w', Reaches P (.goto (P.addr "process_type_2_txn") (rlpStart :: ret :: S) w) (.goto (P.addr "invalid_txn") s w') := by
  have hr : Rest w rlpStart t.wire := ⟨⟨by decide, by decide, by simp only [rlpStart]; omega⟩, hm⟩
  have hhead := run_type2_head (ret := ret) (S := S) hP hk hr
  have hr0 := typed_rest hr
  change Rest w t.bodyAt _ at hr0
  change Reaches P _ (.goto _ (t.bodyAt :: _) _) at hhead
  have hge : rlpStart ≤ t.bodyAt := by simp only [TypedTx.bodyAt]; omega
  rw [TypedTx.body] at hr0
  simp only [List.append_assoc] at hr0
  have hfee := run_type2_fees (n := (t.body ++ t.sig).length) (ret := ret) (S := S) hP hk hch hn hp hf hg hge hr0
  have hr2 := rest_t1 (t := t) hr0.right (by omega)
  obtain ⟨s, h⟩ := run_type2_bad_to (S := t.bodyAt :: ret :: S) hP h0 h20 hr2
  exact ⟨s, _, (hhead.trans hfee).trans h⟩

/-- From the access list to the recovery of the sender. -/
theorem run_type2_rest (hP : P.Type2s) (ht : t.Ok) (hk : t.type = 2) (hm : HasBytes w rlpStart t.wire) (hi : w.inp 0 < 2 ^ 256) (hs : t.s < halfOrder) :
    Returns P (55 < t.body.length → w.inp 0 = bits t.body.length)
      (.goto (P.addr "type_2@18.after") ((t.listAt + (rlpList t.access).length) :: t.bodyAt :: ret :: S) w) (P.addr "ecrecover") fun s w' =>
      s = P.hash t.signed :: (27 + t.parity) :: t.r :: t.s :: P.addr "store_origin@type_2" :: ret :: S ∧ t.Signature w w' := by
  have hshort := ht.short
  have hp := ht.parity
  have hr : Rest w rlpStart t.wire := ⟨⟨by decide, by decide, by simp only [rlpStart]; omega⟩, hm⟩
  have hr0 := typed_rest hr
  change Rest w t.bodyAt _ at hr0
  have ebody : t.listAt + (rlpList t.access).length = t.bodyAt + t.body.length := by
    simp only [TypedTx.listAt, TypedTx.body, List.length_append]; omega
  have hge : rlpStart ≤ t.bodyAt := by simp only [TypedTx.bodyAt]; omega
  rw [ebody]
  refine .of (run_type2_sig hP (by omega) ht.r ht.s (by omega) hr0.right) ?_
  rw [if_pos hs]
  have hb := hr0.left
  have hhm := rlpHeader_mono (b := 0xc0) (m := t.body.length) (n := (t.body ++ t.sig).length) (by rw [List.length_append]; omega)
  have ewire : t.wire.length = 1 + (rlpHeader 0xc0 (t.body ++ t.sig).length).length + (t.body.length + t.sig.length) := by
    rw [TypedTx.wire, List.length_cons, rlpList, List.length_append, List.length_append]; omega
  obtain ⟨a, ha⟩ : ∃ a, a + 1 + (rlpHeader 0xc0 t.body.length).length = t.bodyAt :=
    ⟨t.bodyAt - 1 - (rlpHeader 0xc0 t.body.length).length, by simp only [TypedTx.bodyAt]; omega⟩
  have el : (rlpList t.body).length = (rlpHeader 0xc0 t.body.length).length + t.body.length := by rw [rlpList, List.length_append]
  have hage : rlpStart ≤ a := by simp only [TypedTx.bodyAt] at ha; omega
  have hsa : Span a ((rlpList t.body).length + 1) := by
    obtain ⟨k, rfl⟩ : ∃ k, a = rlpStart + k := ⟨a - rlpStart, by omega⟩
    simp only [TypedTx.bodyAt] at ha
    exact (hr.1.later (k := k) (by omega)).le (by omega)
  have hb1 : Rest (((w.set 0x90000000c t.parity).set 0x90000000d t.r).set 0x90000000e t.s) t.bodyAt t.body := by
    simp only [rlpStart] at hge
    exact ((hb.set (by omega)).set (by omega)).set (by omega)
  have hf := run_type2_finish (ret := ret) (S := S) hP hsa (by rw [ha]; exact hb1.2) (typed_bytes ht) hage (by exact hi)
  rw [ha, show a + 1 + (rlpList t.body).length = t.bodyAt + t.body.length by omega] at hf
  refine hf.mono id ?_
  rintro s w' ⟨rfl, h2, h3⟩
  have e1 : (((w.set 0x90000000c t.parity).set 0x90000000d t.r).set 0x90000000e t.s).mem 0x90000000c = t.parity := by simp [World.set]
  have e2 : (((w.set 0x90000000c t.parity).set 0x90000000d t.r).set 0x90000000e t.s).mem 0x90000000d = t.r := by simp [World.set]
  have e3 : (((w.set 0x90000000c t.parity).set 0x90000000d t.r).set 0x90000000e t.s).mem 0x90000000e = t.s := by simp [World.set]
  have hage' := hage
  simp only [rlpStart] at hage'
  refine ⟨by rw [e1, e2, e3, wadd_small hp, TypedTx.signed, hk], ?_⟩
  constructor
  case parity => rw [h3 _ (.inl (by omega)), e1]
  case r => rw [h3 _ (.inl (by omega)), e2]
  case s => rw [h3 _ (.inl (by omega)), e3]
  case ctx => exact h2
  case else_ =>
    intro b g1 g2
    simp only [TypedTx.bodyAt, rlpStart] at ha g2 h3
    rw [h3 b (by omega)]
    simp only [World.set]
    repeat rw [if_neg (by omega)]

/-- A signature with `s` above half the order (EIP-2). -/
theorem run_type2_high (hP : P.Type2s) (ht : t.Ok) (hm : HasBytes w rlpStart t.wire) (hs : halfOrder ≤ t.s) :
    Reaches P (.goto (P.addr "type_2@18.after") ((t.listAt + (rlpList t.access).length) :: t.bodyAt :: ret :: S) w) .panic := by
  have hshort := ht.short
  have hp := ht.parity
  have hr : Rest w rlpStart t.wire := ⟨⟨by decide, by decide, by simp only [rlpStart]; omega⟩, hm⟩
  have hr0 := typed_rest hr
  change Rest w t.bodyAt _ at hr0
  have ebody : t.listAt + (rlpList t.access).length = t.bodyAt + t.body.length := by
    simp only [TypedTx.listAt, TypedTx.body, List.length_append]; omega
  have hge : rlpStart ≤ t.bodyAt := by simp only [TypedTx.bodyAt]; omega
  rw [ebody]
  have := run_type2_sig (S := t.bodyAt :: ret :: S) hP (by omega) ht.r ht.s (by omega) hr0.right
  rw [if_neg (by omega)] at this
  exact this

/-- `asm/transactions/type_2.asm:83-93`: the sender that was recovered is the one for whom the transaction is executed. -/
theorem run_type2_origin (hP : P.Type2s) {x : Nat} (hx : x < 2 ^ 256 - 1) :
    Reaches P (.goto (P.addr "store_origin@type_2") (x :: ret :: S) w) (.goto (P.addr "process_normalized_txn") (ret :: S) (w.set 0x90000000f x)) := by
  enter hP.has in type2Code
  rw [b_store_origin_type_2]
  kexec [m_eq_const, m_mstore_txn_field]
  rw [if_pos (by omega), exec_mstore_at (by decide)]
  kexec []
  exact .refl _

/-- No sender: no proof. -/
theorem run_type2_no_origin (hP : P.Type2s) : Reaches P (.goto (P.addr "store_origin@type_2") ((2 ^ 256 - 1) :: ret :: S) w) .panic := by
  enter hP.has in type2Code
  rw [b_store_origin_type_2]
  kexec [m_eq_const, m_mstore_txn_field]
  exact rlp_panic hP.rlps

end Verif.Kasm
