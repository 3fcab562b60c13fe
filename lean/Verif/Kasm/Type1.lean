import Verif.Kasm.Typed
import Verif.Kasm.Code.Type1

/-!
Reading a transaction of type 1, and what is signed (`asm/transactions/type_1.asm`).
-/

namespace Verif.Kasm

variable {P : Prog} {S : List Nat} {w w' : World} {ret a v n : Nat} {l l' : List Nat} {t : TypedTx}

/-- A kernel with this code and what it calls. -/
structure Prog.Type1s (P : Prog) : Prop where
  rlps : P.Rlps
  has : P.Has type1Code

/-- `asm/transactions/type_1.asm:9-21`. -/
theorem run_type1_head (hP : P.Type1s) (hk : t.type = 1) (hm : Rest w rlpStart t.wire) :
    Reaches P (.goto (P.addr "process_type_1_txn") (rlpStart :: ret :: S) w)
      (.goto (P.addr "type_1@1.after") ((rlpStart + 1 + (rlpHeader 0xc0 (t.body ++ t.sig).length).length) ::
        (t.body ++ t.sig).length :: ret :: S) (w.set 0x900000000 t.type)) := by
  enter hP.has in type1Code
  rw [b_process_type_1_txn]
  kexec [m_mstore_txn_field, m_add_const]
  rw [exec_mstore_at (by decide)]
  kexec []
  have h := hm.set (b := 0x900000000) (x := t.type) (by decide)
  rw [TypedTx.wire, rlpList, ← List.singleton_append] at h
  have h2 := h.right
  have hs := h2.left.span
  have hl := h2.span.lt
  rw [List.length_append] at hl
  rw [hk] at h2 hs ⊢
  exact run_decode_list hP.rlps (by omega) hs h2.left.2

/-- From there to the recipient. -/
theorem run_type1_fees (hP : P.Type1s) (hk : t.type = 1) (hft : t.fee = t.tip) (hch : t.chain < 2 ^ 256) (hn : t.nonce < 2 ^ 256) (hp : t.tip < 2 ^ 256)
    (hg : t.gas < 2 ^ 256) (ha : rlpStart ≤ a) (hm : Rest w a (t.head ++ l)) :
    Reaches P (.goto (P.addr "type_1@1.after") (a :: n :: ret :: S) (w.set 0x900000000 t.type))
      (.goto (P.addr "decode_rlp_string_len") ((a + t.head.length) :: P.addr "type_1@11.after" :: a :: ret :: S) (t.w1 w)) := by
  have ha' := ha
  simp only [rlpStart] at ha'
  enter hP.has in type1Code
  rw [b_type_1_1_after]
  kexec [m_store_chain_id_present_true, m_mstore_txn_field]
  rw [exec_mstore_at (by decide)]
  kexec []
  have ef : t.fees = rlpNum t.tip := by rw [TypedTx.fees, if_pos hk]
  simp only [TypedTx.head, ef, List.append_assoc] at hm
  have h0 := (hm.set (b := 0x900000000) (x := t.type) (by omega)).set (b := 0x900000001) (x := 1) (by omega)
  refine (h0.scalar hP.rlps hch).trans ?_
  enter hP.has in type1Code
  rw [b_type_1_3_after]
  kexec [m_mstore_txn_field]
  rw [exec_mstore_at (by decide)]
  kexec []
  have h1 := (h0.right).set (b := 0x900000002) (x := t.chain) (by omega)
  refine (h1.scalar hP.rlps hn).trans ?_
  enter hP.has in type1Code
  rw [b_type_1_5_after]
  kexec [m_mstore_txn_field]
  rw [exec_mstore_at (by decide)]
  kexec []
  have h2 := (h1.right).set (b := 0x900000003) (x := t.nonce) (by omega)
  refine (h2.scalar hP.rlps hp).trans ?_
  enter hP.has in type1Code
  rw [b_type_1_7_after]
  kexec [m_mstore_txn_field]
  rw [exec_mstore_at (by decide)]
  kexec []
  rw [exec_mstore_at (by decide)]
  kexec []
  have h3 := ((h2.right).set (b := 0x900000004) (x := t.tip) (by omega)).set (b := 0x900000005) (x := t.tip) (by omega)
  refine (h3.scalar hP.rlps hg).trans ?_
  enter hP.has in type1Code
  rw [b_type_1_9_after]
  kexec [m_mstore_txn_field]
  rw [exec_mstore_at (by decide)]
  kexec []
  rw [TypedTx.head, TypedTx.w1, hft, ef]
  simp only [List.length_append, ← Nat.add_assoc]
  exact .refl _

/-- The recipient. -/
theorem run_type1_to (hP : P.Type1s) (ht : t.to = [] ∨ t.to.length = 20) (htb : AllBytes t.to) (ha : rlpStart ≤ a) (hm : Rest w a (rlpStr t.to ++ l)) :
    Reaches P (.goto (P.addr "decode_rlp_string_len") (a :: P.addr "type_1@11.after" :: S) w)
      (.goto (P.addr "decode_rlp_scalar") ((a + (rlpStr t.to).length) :: P.addr "type_1@13.after" :: S)
        (if t.to = [] then w.set 0x500000024 1 else w.set 0x900000008 (beVal t.to))) := by
  have ha' := ha
  simp only [rlpStart] at ha'
  obtain ⟨b, e, hb, h⟩ := run_decode_string (ret := P.addr "type_1@11.after") (S := S) hP.rlps hm.left.span hm.left.2
  refine h.trans ?_
  enter hP.has in type1Code
  rw [b_type_1_11_after]
  kexec [m_eq_const]
  rcases ht with h0 | h20
  · rw [h0]
    rw [h0] at e
    rw [if_neg (by decide), if_pos rfl]
    enter hP.has in type1Code
    rw [b_type_1_10_contract_creation]
    kexec [m_mstore_global_metadata, b_type_1_10_end]
    rw [exec_mstore_at (by decide)]
    kexec []
    rw [← e]
    exact .refl _
  · have hne : t.to ≠ [] := by intro h; rw [h] at h20; cases h20
    have hb' : Rest w b t.to := by
      refine ⟨?_, hb⟩
      have hs := hm.left.1
      rw [rlpStr_short (by omega) (by omega), List.length_cons] at hs e
      obtain rfl : b = a + 1 := by omega
      exact (hs.later (k := 1) (by omega)).le (by omega)
    rw [if_neg hne, if_pos (by omega), if_pos (by omega)]
    refine (run_decode_bytes hP.rlps htb (by omega) (by omega) hb').trans ?_
    enter hP.has in type1Code
    rw [b_type_1_10_with_scalar]
    kexec [m_mstore_txn_field]
    rw [exec_mstore_at (by decide)]
    kexec []
    enter hP.has in type1Code
    rw [b_type_1_10_end]
    kexec []
    rw [← e]
    exact .refl _

/-- A recipient that is no address, and not empty. -/
theorem run_type1_bad_to (hP : P.Type1s) (h0 : t.to.length ≠ 0) (h20 : t.to.length ≠ 20) (hm : Rest w a (rlpStr t.to ++ l)) :
    ∃ s, Reaches P (.goto (P.addr "decode_rlp_string_len") (a :: P.addr "type_1@11.after" :: S) w) (.goto (P.addr "invalid_txn") s w) := by
  obtain ⟨b, e, hb, h⟩ := run_decode_string (ret := P.addr "type_1@11.after") (S := S) hP.rlps hm.left.span hm.left.2
  refine ⟨t.to.length :: b :: S, h.trans ?_⟩
  enter hP.has in type1Code
  rw [b_type_1_11_after]
  kexec [m_eq_const]
  rw [if_pos h0]
  rw [if_neg (fun h => h20 h.symm)]
  exact .refl _

/-- The value and the data. -/
theorem run_type1_data (hP : P.Type1s) (hv : t.value < 2 ^ 256) (htd : AllBytes t.data) (hc : w.ctx = 0) (hd : t.data.length < 2 ^ 32) (ha : rlpStart ≤ a)
    (hm : Rest w a (rlpNum t.value ++ (rlpStr t.data ++ l))) :
    Reaches P (.goto (P.addr "decode_rlp_scalar") (a :: P.addr "type_1@13.after" :: S) w)
      (.goto (P.addr "decode_and_store_access_list") ((a + (rlpNum t.value ++ rlpStr t.data).length) :: P.addr "type_1@16.after" :: S)
        (((w.set 0x900000009 t.value).set 0x90000000a t.data.length).put 0xa00000000 t.data)) := by
  have ha' := ha
  simp only [rlpStart] at ha'
  refine (hm.scalar hP.rlps hv).trans ?_
  enter hP.has in type1Code
  rw [b_type_1_13_after]
  kexec [m_mstore_txn_field]
  rw [exec_mstore_at (by decide)]
  kexec []
  have h1 := (hm.right).set (b := 0x900000009) (x := t.value) (by omega)
  obtain ⟨b, e, hb, h⟩ := run_decode_string (ret := P.addr "type_1@15.after") (S := S) hP.rlps h1.left.span h1.left.2
  refine h.trans ?_
  have hs := h1.left.1
  have hlt := hs.lt
  have hsb : Span b (t.data.length + 1) := by
    rcases rlpStr_cases t.data with ⟨x, hx, ex, e'⟩ | e'
    · rw [e', ex] at e
      simp only [List.length_singleton] at e
      obtain rfl : b = a + (rlpNum t.value).length := by omega
      rw [ex, List.length_singleton]; rw [e', List.length_singleton] at hs; exact hs
    · rw [e', List.length_append] at hs e
      obtain rfl : b = a + (rlpNum t.value).length + (rlpHeader 0x80 t.data.length).length := by omega
      exact (hs.later (by omega)).le (by omega)
  have hbge : rlpStart ≤ b := by
    rcases rlpStr_cases t.data with ⟨x, hx, ex, e'⟩ | e'
    · rw [e', ex] at e
      simp only [List.length_singleton] at e
      omega
    · rw [e', List.length_append] at e
      omega
  simp only [rlpStart] at hbge
  enter hP.has in type1Code
  rw [b_type_1_15_after]
  kexec [m_mstore_txn_field]
  rw [exec_mstore_at (by decide)]
  kexec []
  have hc2 : (((w.set 0x900000009 t.value).set 0x90000000a t.data.length).ctx) = 0 := hc
  rw [hc2, wadd_small (a := b) (by omega), Nat.zero_mul]
  have z : ∀ {x}, x < 2 ^ 256 → wadd 0 x = x := fun hx => by rw [wadd_small (by omega), Nat.zero_add]
  rw [z (by decide), z (by omega)]
  have hcells : cellsAt ((w.set 0x900000009 t.value).set 0x90000000a t.data.length) b t.data.length = t.data := by
    refine List.ext_getElem cellsAt_length fun i h1 h2 => ?_
    have e1 := hb i h2
    rw [List.getD_eq_getElem?_getD, List.getElem?_eq_getElem h2, Option.getD_some] at e1
    simp only [cellsAt, List.getElem_map, List.getElem_range]
    rw [← e1, World.set]
    simp only []
    rw [if_neg (by omega)]
  have hcopy : ((w.set 0x900000009 t.value).set 0x90000000a t.data.length).copy 0xa00000000 b t.data.length
      = ((w.set 0x900000009 t.value).set 0x90000000a t.data.length).put 0xa00000000 t.data := by
    rw [put_copy, hcells]
  refine (run_memcpy_bytes hP.rlps.copies t.data.length 0xa00000000 b _ ⟨by decide, by decide, by omega⟩ (hsb.le (Nat.le_succ _)) (.inl (by omega)) ?_).trans ?_
  · intro i hi
    rw [← cellsAt_getD hi, hcells, List.getD_eq_getElem?_getD, List.getElem?_eq_getElem hi, Option.getD_some]
    exact htd _ (List.getElem_mem hi)
  · rw [hcopy, List.length_append, show a + ((rlpNum t.value).length + (rlpStr t.data).length) = b + t.data.length by omega]
    enter hP.has in type1Code
    rw [b_type_1_14_after]
    kexec []
    exact .refl _

/-- `asm/transactions/type_1.asm:36-45`: the signature. -/
theorem run_type1_sig (hP : P.Type1s) (hp : t.parity < 2 ^ 256) (hr : t.r < 2 ^ 256) (hs' : t.s < 2 ^ 256) (ha : rlpStart ≤ a) (hm : Rest w a t.sig) :
    Reaches P (.goto (P.addr "type_1@16.after") (a :: S) w)
      (if t.s < halfOrder then exec P b_type_1_compute_signed_data (a :: S) (((w.set 0x90000000c t.parity).set 0x90000000d t.r).set 0x90000000e t.s) else .panic) := by
  have ha' := ha
  simp only [rlpStart] at ha'
  have hm' : Rest w a (rlpNum t.parity ++ (rlpNum t.r ++ (rlpNum t.s ++ []))) := by rw [List.append_nil]; exact hm
  enter hP.has in type1Code
  rw [b_type_1_16_after]
  kexec []
  refine (hm'.scalar hP.rlps hp).trans ?_
  enter hP.has in type1Code
  rw [b_type_1_18_after]
  kexec [m_mstore_txn_field]
  rw [exec_mstore_at (by decide)]
  kexec []
  have h1 := (hm'.right).set (b := 0x90000000c) (x := t.parity) (by omega)
  refine (h1.scalar hP.rlps hr).trans ?_
  enter hP.has in type1Code
  rw [b_type_1_20_after]
  kexec [m_mstore_txn_field]
  rw [exec_mstore_at (by decide)]
  kexec []
  have h2 := (h1.right).set (b := 0x90000000d) (x := t.r) (by omega)
  refine (h2.scalar hP.rlps hs').trans ?_
  enter hP.has in type1Code
  rw [b_type_1_22_after]
  kexec [m_mstore_txn_field, m_secp_scalar_half, m_assert_gt0, m_assert_nonzero0]
  by_cases hs : t.s < halfOrder
  · rw [if_pos hs]
    simp only [halfOrder] at hs
    rw [if_pos hs, exec_mstore_at (by decide)]
    kexec []
    exact .refl _
  · rw [if_neg hs]
    simp only [halfOrder] at hs
    rw [if_neg hs]
    exact rlp_panic hP.rlps

/-- `asm/transactions/type_1.asm:53-78`: the hash of what is signed. -/
theorem run_type1_finish (hP : P.Type1s) {q : List Nat} (ha : Span a ((rlpList q).length + 1)) (hm : HasBytes w (a + 1 + (rlpHeader 0xc0 q.length).length) q)
    (hq : AllBytes q) (hge : rlpStart ≤ a) (hi : w.inp 0 < 2 ^ 256) :
    Returns P (55 < q.length → w.inp 0 = bits q.length)
      (exec P b_type_1_compute_signed_data ((a + 1 + (rlpList q).length) :: (a + 1 + (rlpHeader 0xc0 q.length).length) :: ret :: S) w) (P.addr "ecrecover") fun s w' =>
      s = P.hash (1 :: rlpList q) :: wadd 27 (w.mem 0x90000000c) :: w.mem 0x90000000d :: w.mem 0x90000000e :: P.addr "store_origin@type_1" :: ret :: S ∧
        w'.ctx = w.ctx ∧ ∀ b, b < a ∨ a + 1 + (rlpList q).length ≤ b → w'.mem b = w.mem b := by
  have hl := ha.lt
  have ha1 : Span (a + 1) (rlpList q).length := by
    by_cases h : (rlpList q).length = 0
    · exact absurd h (by rw [rlpList, List.length_append]; have := rlpHeader_head (b := 0xc0) (n := q.length); obtain ⟨x, y, e, -⟩ := this; rw [e]; simp)
    · exact (ha.later (k := 1) (by omega)).le (by omega)
  rw [b_type_1_compute_signed_data]
  kexec []
  refine (C125_list hP.rlps ha1 hm hi).andThen ?_
  rintro s w' ⟨rfl, h2, h3, h4⟩
  have hql : q.length < 2 ^ 64 := by
    have := ha1.2.2
    rw [rlpList, List.length_append] at this; omega
  simp only [rlpStart] at hge
  renter hP.has in type1Code
  rw [b_type_1_23_after]
  kexec [m_decrement, m_sub_const, m_increment, m_add_const]
  rw [wsub_small (by omega) (by omega), Nat.add_sub_cancel, exec_set_at (ha.le (k := 1) (by omega))]
  kexec []
  rw [wadd_small (by omega), Nat.add_comm 1]
  rw [exec_keccak ⟨ha.2.1, ha.2.2⟩, ha.key]
  have hw : HasBytes (w'.put a [1]) a (1 :: rlpList q) := by
    rw [show 1 :: rlpList q = [1] ++ rlpList q from rfl]
    refine HasBytes.app (l := [1]) (l' := rlpList q) (written_put (w := w') (w' := w') rfl rfl).here fun i hi => ?_
    rw [← h2 i hi, List.length_singleton]
    simp only [World.put, List.length_singleton]
    rw [if_neg (by omega)]
  have hbytes : AllBytes (1 :: rlpList q) := by
    rw [show 1 :: rlpList q = [1] ++ rlpList q from rfl]
    refine AllBytes.app ?_ ((rlpHeader_bytes (by decide) hql).app hq)
    intro x hx
    rw [List.mem_singleton] at hx; omega
  have := hw.bytes hbytes
  rw [List.length_cons] at this
  rw [this]
  kexec [m_mload_txn_field, m_add_const]
  rw [exec_mload_at (by decide)]
  kexec []
  rw [exec_mload_at (by decide)]
  kexec []
  rw [exec_mload_at (by decide)]
  kexec []
  rw [put_below (by omega), put_below (by omega), put_below (by omega), h4 _ (by omega), h4 _ (by omega), h4 _ (by omega)]
  refine .ret ⟨rfl, h3, fun b hb => ?_⟩
  rw [← h4 b (by omega)]
  simp only [World.put, List.length_singleton]
  rw [if_neg (by omega)]

end Verif.Kasm
