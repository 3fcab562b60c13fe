import Verif.Kasm.Type0

/-!
C126: of a transaction of the first kind the kernel takes what its sender signed.
-/

namespace Verif.Kasm

variable {P : Prog} {S : List Nat} {w w' : World} {ret : Nat} {t : LegacyTx}

/-- What the kernel holds of a transaction once it has read it: its fields (`constants/txn_fields.rs:3-42`), its data in their segment, and
nothing else but that the input may be overwritten. -/
structure Decoded (w w' : World) (t : LegacyTx) : Prop where
  type : w'.mem 0x900000000 = 0
  chainGiven : w'.mem 0x900000001 = if t.v ≤ 28 then 0 else 1
  chain : ¬ t.v ≤ 28 → w'.mem 0x900000002 = t.chain
  nonce : w'.mem 0x900000003 = t.nonce
  tip : w'.mem 0x900000004 = t.price
  fee : w'.mem 0x900000005 = t.price
  gas : w'.mem 0x900000006 = t.gas
  to : t.to ≠ [] → w'.mem 0x900000008 = beVal t.to ∧ w'.mem 0x500000024 = w.mem 0x500000024
  create : t.to = [] → w'.mem 0x900000008 = w.mem 0x900000008 ∧ w'.mem 0x500000024 = 1
  value : w'.mem 0x900000009 = t.value
  dataLen : w'.mem 0x90000000a = t.data.length
  data : HasBytes w' 0xa00000000 t.data
  parity : w'.mem 0x90000000c = t.parity
  r : w'.mem 0x90000000d = t.r
  s : w'.mem 0x90000000e = t.s
  ctx : w'.ctx = w.ctx
  else_ : ∀ b, b ≠ 0x500000024 → (b < 0x900000000 ∨ 0x90000000e < b) → (b < 0xa00000000 ∨ 0xa00000000 + t.data.length ≤ b) →
    (b < rlpStart ∨ rlpStart + t.wire.length ≤ b) → w'.mem b = w.mem b

theorem inner_le (ht : t.Ok) : t.inner.length ≤ (t.body ++ (rlpNum t.v ++ (rlpNum t.r ++ rlpNum t.s))).length := by
  have h1 := rlpNum_one t.r ht.r
  have h2 := rlpNum_one t.s ht.s
  have h3 := rlpNum_mono (m := t.chain) (n := t.v) (by simp only [LegacyTx.chain]; omega) ht.v
  rw [LegacyTx.inner]
  split
  · rw [List.length_append]; omega
  · simp only [List.length_append, rlpNum_zero, List.length_singleton]; omega

theorem data_short (ht : t.Ok) : t.data.length < 2 ^ 32 := by
  have h := ht.short
  rw [LegacyTx.wire, rlpList] at h
  simp only [LegacyTx.body, List.length_append] at h
  rcases rlpStr_cases t.data with ⟨b, -, e, -⟩ | e
  · rw [e, List.length_singleton]; omega
  · rw [e, List.length_append] at h; omega

theorem body_bytes (ht : t.Ok) : AllBytes t.body := by
  have hd := data_short ht
  have h20 : t.to.length < 2 ^ 64 := by
    rcases ht.to with h | h
    · rw [h]; decide
    · rw [h]; decide
  exact (rlpNum_bytes ht.nonce).app ((rlpNum_bytes ht.price).app ((rlpNum_bytes ht.gas).app ((rlpStr_bytes ht.toBytes h20).app
    ((rlpNum_bytes ht.value).app (rlpStr_bytes ht.data (by omega))))))

/-- All that is stored before the hash. -/
def LegacyTx.w5 (t : LegacyTx) (w : World) : World := ((t.w4 (t.w3 w)).set 0x90000000d t.r).set 0x90000000e t.s

theorem rest_w5 {a : Nat} {l : List Nat} (h : Rest w a l) (ha : rlpStart ≤ a) (hd : t.data.length < 2 ^ 32) : Rest (t.w5 w) a l := by
  have h1 := rest_w3 (t := t) h ha hd
  simp only [rlpStart] at ha
  refine Rest.set (Rest.set ?_ (by omega)) (by omega)
  simp only [LegacyTx.w4]
  split
  · exact h1.set (by omega)
  · exact ((h1.set (by omega)).set (by omega)).set (by omega)

theorem decoded_w5 (hc : w.mem 0x900000001 = 0) : Decoded w (t.w5 w) t := by
  have hp : ∀ b, b < 0xa00000000 → ∀ x : World, (x.put 0xa00000000 t.data).mem b = x.mem b := fun b hb x => put_below hb
  by_cases hv : t.v ≤ 28 <;> by_cases ht : t.to = []
  all_goals
    constructor
    case data =>
      intro i hi
      have : ∀ (x : World), (x.put 0xa00000000 t.data).mem (0xa00000000 + i) = t.data.getD i 0 := fun x => by
        simp only [World.put]; rw [if_pos (by omega), Nat.add_sub_cancel_left]
      simp only [LegacyTx.w5, LegacyTx.w4, LegacyTx.w3, hv, if_true, if_false]
      simp only [World.set]
      iterate 5 (first | rw [if_neg (by omega)] | skip)
      exact this _
    case else_ =>
      intro b h1 h2 h3 h4
      simp only [LegacyTx.w5, LegacyTx.w4, LegacyTx.w3, LegacyTx.w2, LegacyTx.w1, hv, ht, if_true, if_false, World.set, World.put]
      repeat rw [if_neg (by omega)]
    all_goals
      simp [LegacyTx.w5, LegacyTx.w4, LegacyTx.w3, LegacyTx.w2, LegacyTx.w1, hv, ht, World.set, World.put, hc]

/-- Reading a transaction.  The kernel goes to recover the sender from the signature over exactly `t.signed`, and the fields it will use are
those of `t`.  Nothing the prover says changes this. -/
theorem C126_legacy (hP : P.Type0s) (ht : t.Ok) (hv : t.v = 27 ∨ t.v = 28 ∨ 35 ≤ t.v) (hs : t.s < halfOrder)
    (hc : w.ctx = 0) (hn : w.mem 0x900000001 = 0) (hm : HasBytes w rlpStart t.wire) (hi : ∀ i, w.inp i < 2 ^ 256) :
    Returns P (t.Hints w t.inner.length) (.goto (P.addr "process_type_0_txn") (rlpStart :: ret :: S) w) (P.addr "ecrecover") fun s w' =>
      s = P.hash t.signed :: (27 + t.parity) :: t.r :: t.s :: P.addr "store_origin@type_0" :: ret :: S ∧ Decoded w w' t := by
  have hle := inner_le ht
  have hdl := data_short ht
  have hshort := ht.short
  have hr : Rest w rlpStart t.wire := ⟨⟨by decide, by decide, by simp only [rlpStart]; omega⟩, hm⟩
  have hh := rlpHeader_mono (b := 0xc0) hle
  refine .of (run_type0_head hP hr) ?_
  rw [LegacyTx.wire, rlpList] at hr hshort
  obtain ⟨q, hq⟩ : ∃ q, t.body ++ (rlpNum t.v ++ (rlpNum t.r ++ rlpNum t.s)) = q := ⟨_, rfl⟩
  rw [hq] at hr hshort hle hh ⊢
  have hr0 := hr.right
  obtain ⟨n0, hn0⟩ : ∃ n0, rlpStart + (rlpHeader 0xc0 q.length).length = n0 := ⟨_, rfl⟩
  rw [hn0] at hr0 ⊢
  have hge : rlpStart ≤ n0 := by omega
  rw [← hq] at hr0
  refine .of (run_type0_fees hP ht.nonce ht.price ht.gas hge hr0) ?_
  have hr1 := hr0
  rw [body_split, List.append_assoc, List.append_assoc (rlpStr t.to), List.append_assoc (rlpNum t.value)] at hr1
  have hr2 := hr1.right
  have hr3 := hr2.right
  have hr4 := hr3.right
  have hr5 := hr4.right
  have hr6 := hr5.right
  refine .of (run_type0_to hP ht (by omega) (rest_w1 hr2 (by omega))) ?_
  have hto : Rest (if t.to = [] then (t.w1 w).set 0x500000024 1 else (t.w1 w).set 0x900000008 (beVal t.to))
      (n0 + (rlpNum t.nonce ++ (rlpNum t.price ++ rlpNum t.gas)).length + (rlpStr t.to).length)
      (rlpNum t.value ++ (rlpStr t.data ++ (rlpNum t.v ++ (rlpNum t.r ++ rlpNum t.s)))) := by
    have h1 := rest_w1 (t := t) hr3 (by omega)
    simp only [rlpStart] at hge
    split
    · exact h1.set (by omega)
    · exact h1.set (by omega)
  refine .of (run_type0_data hP ht (by split <;> exact hc) hdl (by omega) hto) ?_
  have ebody : t.body.length = (rlpNum t.nonce ++ (rlpNum t.price ++ rlpNum t.gas)).length + (rlpStr t.to).length + (rlpNum t.value ++ rlpStr t.data).length := by
    rw [body_split]; simp only [List.length_append]; omega
  have el : (rlpNum t.value ++ rlpStr t.data).length = (rlpNum t.value).length + (rlpStr t.data).length := List.length_append
  rw [show n0 + (rlpNum t.nonce ++ (rlpNum t.price ++ rlpNum t.gas)).length + (rlpStr t.to).length + (rlpNum t.value ++ rlpStr t.data).length
    = n0 + t.body.length by omega]
  rw [show n0 + (rlpNum t.nonce ++ (rlpNum t.price ++ rlpNum t.gas)).length + (rlpStr t.to).length + (rlpNum t.value).length + (rlpStr t.data).length
    = n0 + t.body.length by omega] at hr5 hr6
  change Returns P _ (.goto _ _ (t.w3 w)) _ _
  refine .of (run_type0_v hP ht hv (by omega) (rest_w3 hr5 (by omega) hdl)) ?_
  have hr7 : Rest (t.w4 (t.w3 w)) (n0 + t.body.length + (rlpNum t.v).length) (rlpNum t.r ++ (rlpNum t.s ++ [])) := by
    rw [List.append_nil]
    have h1 := rest_w3 (t := t) hr6 (by omega) hdl
    simp only [rlpStart] at hge
    simp only [LegacyTx.w4]
    split
    · exact h1.set (by omega)
    · exact ((h1.set (by omega)).set (by omega)).set (by omega)
  refine .of (run_type0_rs hP ht hs (by omega) hr7) ?_
  change Returns P _ (exec P _ _ (t.w5 w)) _ _
  have D := decoded_w5 (t := t) hn
  have hb := (rest_w5 (t := t) hr0.left hge hdl).2
  have hspan := hr.1
  rw [List.length_append] at hspan hshort
  obtain ⟨a, ha⟩ : ∃ a, a + (rlpHeader 0xc0 t.inner.length).length = n0 := ⟨n0 - (rlpHeader 0xc0 t.inner.length).length, by omega⟩
  have hsa : Span a (rlpList t.inner).length := by
    obtain rfl : a = rlpStart + ((rlpHeader 0xc0 q.length).length - (rlpHeader 0xc0 t.inner.length).length) := by omega
    rw [rlpList, List.length_append]
    exact (hspan.later (by omega)).le (by omega)
  have hin : (t.w5 w).inp = w.inp := by
    simp only [LegacyTx.w5, LegacyTx.w4, LegacyTx.w3, LegacyTx.w2, LegacyTx.w1]
    split <;> split <;> rfl
  have hcv : t.chain < 2 ^ 256 := by have := ht.v; simp only [LegacyTx.chain]; omega
  rw [← ha] at hb ⊢
  have hH : t.Hints w t.inner.length → t.Hints (t.w5 w) t.inner.length := by
    simp only [LegacyTx.Hints, hin]; exact id
  refine (run_type0_signed hP hcv (body_bytes ht) D.chainGiven D.chain hsa hb (by omega) (by rw [hin]; exact hi)).mono hH ?_
  rintro s w' ⟨rfl, h2, h3⟩
  have hpar : t.parity < 2 := by
    simp only [LegacyTx.parity]; split
    · omega
    · exact Nat.mod_lt _ (by decide)
  rw [D.parity, D.r, D.s, wadd_small (by omega)]
  refine ⟨rfl, ?_⟩
  have key : ∀ b, b < rlpStart → w'.mem b = (t.w5 w).mem b := fun b hb' => h3 b (by omega)
  have ewire : t.wire.length = (rlpHeader 0xc0 q.length).length + q.length := by rw [LegacyTx.wire, rlpList, hq, List.length_append]
  simp only [rlpStart] at key
  constructor
  case data =>
    intro i hi'
    rw [← D.data i hi']
    exact key _ (by omega)
  case else_ =>
    intro b g1 g2 g3 g4
    rw [h3 b (by rw [rlpList, List.length_append]; omega), D.else_ b g1 g2 g3 g4]
  case to => intro h; rw [key _ (by decide), key _ (by decide)]; exact D.to h
  case create => intro h; rw [key _ (by decide), key _ (by decide)]; exact D.create h
  case chain => intro h; rw [key _ (by decide)]; exact D.chain h
  case ctx => exact h2.trans D.ctx
  case type => rw [key _ (by decide)]; exact D.type
  case chainGiven => rw [key _ (by decide)]; exact D.chainGiven
  case nonce => rw [key _ (by decide)]; exact D.nonce
  case tip => rw [key _ (by decide)]; exact D.tip
  case fee => rw [key _ (by decide)]; exact D.fee
  case gas => rw [key _ (by decide)]; exact D.gas
  case value => rw [key _ (by decide)]; exact D.value
  case dataLen => rw [key _ (by decide)]; exact D.dataLen
  case parity => rw [key _ (by decide)]; exact D.parity
  case r => rw [key _ (by decide)]; exact D.r
  case s => rw [key _ (by decide)]; exact D.s

/-- A signature with `s` above half the order is refused (EIP-2). -/
theorem C126_high_s (hP : P.Type0s) (ht : t.Ok) (hv : t.v = 27 ∨ t.v = 28 ∨ 35 ≤ t.v) (hs : halfOrder ≤ t.s)
    (hc : w.ctx = 0) (hm : HasBytes w rlpStart t.wire) :
    Reaches P (.goto (P.addr "process_type_0_txn") (rlpStart :: ret :: S) w) .panic := by
  have hdl := data_short ht
  have hshort := ht.short
  have hr : Rest w rlpStart t.wire := ⟨⟨by decide, by decide, by simp only [rlpStart]; omega⟩, hm⟩
  refine (run_type0_head hP hr).trans ?_
  rw [LegacyTx.wire, rlpList] at hr
  obtain ⟨q, hq⟩ : ∃ q, t.body ++ (rlpNum t.v ++ (rlpNum t.r ++ rlpNum t.s)) = q := ⟨_, rfl⟩
  rw [hq] at hr ⊢
  have hr0 := hr.right
  obtain ⟨n0, hn0⟩ : ∃ n0, rlpStart + (rlpHeader 0xc0 q.length).length = n0 := ⟨_, rfl⟩
  rw [hn0] at hr0 ⊢
  have hge : rlpStart ≤ n0 := by omega
  rw [← hq] at hr0
  refine (run_type0_fees hP ht.nonce ht.price ht.gas hge hr0).trans ?_
  have hr1 := hr0
  rw [body_split, List.append_assoc, List.append_assoc (rlpStr t.to), List.append_assoc (rlpNum t.value)] at hr1
  have hr2 := hr1.right
  have hr3 := hr2.right
  have hr5 := hr3.right.right
  have hr6 := hr5.right
  refine (run_type0_to hP ht (by omega) (rest_w1 hr2 (by omega))).trans ?_
  have hto : Rest (if t.to = [] then (t.w1 w).set 0x500000024 1 else (t.w1 w).set 0x900000008 (beVal t.to))
      (n0 + (rlpNum t.nonce ++ (rlpNum t.price ++ rlpNum t.gas)).length + (rlpStr t.to).length)
      (rlpNum t.value ++ (rlpStr t.data ++ (rlpNum t.v ++ (rlpNum t.r ++ rlpNum t.s)))) := by
    have h1 := rest_w1 (t := t) hr3 (by omega)
    simp only [rlpStart] at hge
    split
    · exact h1.set (by omega)
    · exact h1.set (by omega)
  refine (run_type0_data hP ht (by split <;> exact hc) hdl (by omega) hto).trans ?_
  rw [List.length_append (as := rlpNum t.value), ← Nat.add_assoc]
  change Reaches P (.goto _ _ (t.w3 w)) _
  refine (run_type0_v hP ht hv (by omega) (rest_w3 hr5 (by omega) hdl)).trans ?_
  refine run_type0_high hP ht hs (l := []) (by omega) ?_
  rw [List.append_nil]
  have h1 := rest_w3 (t := t) hr6 (by omega) hdl
  simp only [rlpStart] at hge
  simp only [LegacyTx.w4]
  split
  · exact h1.set (by omega)
  · exact ((h1.set (by omega)).set (by omega)).set (by omega)

/-- A recipient that is no address, and not empty, is refused. -/
theorem C126_bad_to (hP : P.Type0s) (hn : t.nonce < 2 ^ 256) (hp : t.price < 2 ^ 256) (hg : t.gas < 2 ^ 256)
    (h0 : t.to.length ≠ 0) (h20 : t.to.length ≠ 20) (hshort : t.wire.length < 2 ^ 32 - 1) (hm : HasBytes w rlpStart t.wire) :
    ∃ s w', Reaches P (.goto (P.addr "process_type_0_txn") (rlpStart :: ret :: S) w) (.goto (P.addr "invalid_txn") s w') := by
  have hr : Rest w rlpStart t.wire := ⟨⟨by decide, by decide, by simp only [rlpStart]; omega⟩, hm⟩
  suffices h : ∃ s w', Reaches P (.goto (P.addr "type_0@1.after")
      ((rlpStart + (rlpHeader 0xc0 (t.body ++ (rlpNum t.v ++ (rlpNum t.r ++ rlpNum t.s))).length).length) ::
        (t.body ++ (rlpNum t.v ++ (rlpNum t.r ++ rlpNum t.s))).length :: ret :: S) (w.set 0x900000000 0))
      (.goto (P.addr "invalid_txn") s w') by
    obtain ⟨s, w', h⟩ := h
    exact ⟨s, w', (run_type0_head hP hr).trans h⟩
  rw [LegacyTx.wire, rlpList] at hr
  obtain ⟨q, hq⟩ : ∃ q, t.body ++ (rlpNum t.v ++ (rlpNum t.r ++ rlpNum t.s)) = q := ⟨_, rfl⟩
  rw [hq] at hr ⊢
  have hr0 := hr.right
  obtain ⟨n0, hn0⟩ : ∃ n0, rlpStart + (rlpHeader 0xc0 q.length).length = n0 := ⟨_, rfl⟩
  rw [hn0] at hr0 ⊢
  have hge : rlpStart ≤ n0 := by omega
  rw [← hq] at hr0
  have hfee := run_type0_fees (n := q.length) (ret := ret) (S := S) hP hn hp hg hge hr0
  rw [body_split, List.append_assoc, List.append_assoc (rlpStr t.to)] at hr0
  have hr2 := rest_w1 (t := t) hr0.right (by omega)
  obtain ⟨b, e, hb, h⟩ := run_decode_string (ret := P.addr "type_0@9.after") (S := n0 :: ret :: S) hP.rlps hr2.left.span hr2.left.2
  refine ⟨t.to.length :: b :: n0 :: ret :: S, t.w1 w, (hfee.trans h).trans ?_⟩
  enter hP.has in type0Code
  rw [b_type_0_9_after]
  kexec [m_eq_const]
  rw [if_pos h0]
  rw [if_neg (fun h => h20 h.symm)]
  exact .refl _

/-- `asm/transactions/type_0.asm:132-142`: the sender that was recovered is the one for whom the transaction is executed. -/
theorem C126_origin (hP : P.Type0s) {x : Nat} (hx : x < 2 ^ 256 - 1) :
    Reaches P (.goto (P.addr "store_origin@type_0") (x :: ret :: S) w) (.goto (P.addr "process_normalized_txn") (ret :: S) (w.set 0x90000000f x)) := by
  enter hP.has in type0Code
  rw [b_store_origin_type_0]
  kexec [m_eq_const, m_mstore_txn_field]
  rw [if_pos (by omega), exec_mstore_at (by decide)]
  kexec []
  exact .refl _

/-- No sender: no proof. -/
theorem C126_no_origin (hP : P.Type0s) : Reaches P (.goto (P.addr "store_origin@type_0") ((2 ^ 256 - 1) :: ret :: S) w) .panic := by
  enter hP.has in type0Code
  rw [b_store_origin_type_0]
  kexec [m_eq_const, m_mstore_txn_field]
  exact rlp_panic hP.rlps

/-! ### What is signed determines the transaction -/

theorem rlpHeader_prefix {b m n : Nat} {x y : List Nat} (h : rlpHeader b m ++ x = rlpHeader b n ++ y) : m = n ∧ x = y := by
  by_cases h1 : 55 < m <;> by_cases h2 : 55 < n
  · rw [rlpHeader_long h1, rlpHeader_long h2, List.cons_append, List.cons_append] at h
    obtain ⟨ha, hb⟩ := List.cons.inj h
    obtain ⟨hc, hd⟩ := List.append_inj hb (by omega)
    exact ⟨by rw [← beVal_beMin m, hc, beVal_beMin], hd⟩
  · rw [rlpHeader_long h1, rlpHeader_short (by omega), List.cons_append, List.singleton_append] at h
    have := beMin_ne (n := m) (by omega)
    have ha := (List.cons.inj h).1
    omega
  · rw [rlpHeader_long h2, rlpHeader_short (by omega), List.singleton_append, List.cons_append] at h
    have := beMin_ne (n := n) (by omega)
    have ha := (List.cons.inj h).1
    omega
  · rw [rlpHeader_short (by omega), rlpHeader_short (by omega), List.singleton_append, List.singleton_append] at h
    obtain ⟨ha, hb⟩ := List.cons.inj h
    exact ⟨by omega, hb⟩

theorem rlpHeader_head {b n : Nat} : ∃ h l, rlpHeader b n = h :: l ∧ b ≤ h := by
  by_cases h : 55 < n
  · exact ⟨_, _, rlpHeader_long h, by omega⟩
  · exact ⟨_, _, rlpHeader_short (by omega), by omega⟩

/-- No encoding of a string begins another. -/
theorem rlpStr_prefix {s s' x y : List Nat} (h : rlpStr s ++ x = rlpStr s' ++ y) : s = s' ∧ x = y := by
  rcases rlpStr_cases s with ⟨b, hb, e1, e2⟩ | e <;> rcases rlpStr_cases s' with ⟨b', hb', e1', e2'⟩ | e'
  · rw [e2, e2'] at h
    obtain ⟨h1, h2⟩ := List.cons.inj h
    rw [e1, e1', h1]; exact ⟨rfl, h2⟩
  · obtain ⟨c, l, ec, hc⟩ := rlpHeader_head (b := 0x80) (n := s'.length)
    rw [e2, e', ec] at h
    have := (List.cons.inj h).1
    omega
  · obtain ⟨c, l, ec, hc⟩ := rlpHeader_head (b := 0x80) (n := s.length)
    rw [e2', e, ec] at h
    have := (List.cons.inj h).1
    omega
  · rw [e, e', List.append_assoc, List.append_assoc] at h
    obtain ⟨h1, h2⟩ := rlpHeader_prefix h
    exact List.append_inj h2 h1

theorem rlpNum_prefix {m n : Nat} {x y : List Nat} (h : rlpNum m ++ x = rlpNum n ++ y) : m = n ∧ x = y := by
  obtain ⟨h1, h2⟩ := rlpStr_prefix h
  exact ⟨by rw [← beVal_beMin m, h1, beVal_beMin], h2⟩

theorem body_prefix {t t' : LegacyTx} {x y : List Nat} (h : t.body ++ x = t'.body ++ y) :
    (t.nonce = t'.nonce ∧ t.price = t'.price ∧ t.gas = t'.gas ∧ t.to = t'.to ∧ t.value = t'.value ∧ t.data = t'.data) ∧ x = y := by
  simp only [LegacyTx.body, List.append_assoc] at h
  obtain ⟨h1, h⟩ := rlpNum_prefix h
  obtain ⟨h2, h⟩ := rlpNum_prefix h
  obtain ⟨h3, h⟩ := rlpNum_prefix h
  obtain ⟨h4, h⟩ := rlpStr_prefix h
  obtain ⟨h5, h⟩ := rlpNum_prefix h
  obtain ⟨h6, h⟩ := rlpStr_prefix h
  exact ⟨⟨h1, h2, h3, h4, h5, h6⟩, h⟩

theorem rlpNum_ne (n : Nat) (x : List Nat) : rlpNum n ++ x ≠ [] := by
  intro h
  have h2 := rlpNum_prefix (m := n) (n := n + 1) (x := x ++ rlpNum (n + 1)) (y := []) (by rw [← List.append_assoc, h, List.nil_append, List.append_nil])
  omega

/-- Two transactions with the same signed bytes agree in all that the kernel executes, and in the chain they are for: a signature for one
chain, or for none, is not one for another. -/
theorem C126_binding {t t' : LegacyTx} (h : t.signed = t'.signed) :
    t.nonce = t'.nonce ∧ t.price = t'.price ∧ t.gas = t'.gas ∧ t.to = t'.to ∧ t.value = t'.value ∧ t.data = t'.data ∧
      (t.v ≤ 28 ↔ t'.v ≤ 28) ∧ (28 < t.v → t.chain = t'.chain) := by
  rw [signed_inner, signed_inner, rlpList, rlpList] at h
  have hi := (rlpHeader_prefix h).2
  simp only [LegacyTx.inner] at hi
  by_cases h1 : t.v ≤ 28 <;> by_cases h2 : t'.v ≤ 28
  · rw [if_pos h1, if_pos h2] at hi
    obtain ⟨⟨a, b, c, d, e, f⟩, -⟩ := body_prefix (t := t) (t' := t') (x := []) (y := []) (by rw [hi])
    exact ⟨a, b, c, d, e, f, by omega, by omega⟩
  · rw [if_pos h1, if_neg h2] at hi
    have := (body_prefix (t := t) (t' := t') (x := []) (y := rlpNum t'.chain ++ (rlpNum 0 ++ rlpNum 0)) (by rw [List.append_nil]; exact hi)).2
    exact absurd this.symm (rlpNum_ne _ _)
  · rw [if_neg h1, if_pos h2] at hi
    have := (body_prefix (t := t) (t' := t') (x := rlpNum t.chain ++ (rlpNum 0 ++ rlpNum 0)) (y := []) (by rw [List.append_nil]; exact hi)).2
    exact absurd this (rlpNum_ne _ _)
  · rw [if_neg h1, if_neg h2] at hi
    obtain ⟨⟨a, b, c, d, e, f⟩, g⟩ := body_prefix hi
    exact ⟨a, b, c, d, e, f, by omega, fun _ => (rlpNum_prefix g).1⟩

/-- The bytes in the block determine the transaction. -/
theorem C126_wire {t t' : LegacyTx} (h : t.wire = t'.wire) : t = t' := by
  rw [LegacyTx.wire, LegacyTx.wire, rlpList, rlpList] at h
  obtain ⟨⟨a, b, c, d, e, f⟩, g⟩ := body_prefix (rlpHeader_prefix h).2
  obtain ⟨h1, g⟩ := rlpNum_prefix g
  obtain ⟨h2, g⟩ := rlpNum_prefix g
  obtain ⟨h3, -⟩ := rlpNum_prefix (m := t.s) (n := t'.s) (x := []) (y := []) (by rw [List.append_nil, List.append_nil]; exact g)
  obtain ⟨n, p, ga, to, va, da, v, r, s⟩ := t
  obtain ⟨n', p', ga', to', va', da', v', r', s'⟩ := t'
  simp only at a b c d e f h1 h2 h3
  subst a b c d e f h1 h2 h3
  rfl

/-! ### The example of EIP-155 -/

def type0Prog : Prog := tableProg (type0Code ++ rlpCode ++ copyCode ++ [("panic", b_panic)]) List.sum

theorem type0Prog_has : type0Prog.Type0s := by
  have h : type0Prog.Has (type0Code ++ rlpCode ++ copyCode ++ [("panic", b_panic)]) :=
    tableProg_has _ _ (by decide +kernel) (by decide +kernel) (by decide +kernel)
  refine ⟨⟨tableProg_copies _ _ (by decide +kernel) (by decide +kernel) (by decide +kernel) ?_, h.mono ?_, h.mono ?_⟩, h.mono ?_⟩
  · intro p hp; simp [hp]
  · intro p hp; simp [hp]
  · intro p hp; simp only [List.mem_singleton] at hp; simp [hp]
  · intro p hp; simp [hp]

def tx155 : LegacyTx where
  nonce := 9
  price := 20000000000
  gas := 21000
  to := List.replicate 20 0x35
  value := 1000000000000000000
  data := []
  v := 37
  r := 18515461264373351373200002665853028612451056578545711640558177905181847433674
  s := 46948507304638947509940763649030358759909902576025900602547168820602576006531

/-- The bytes to be signed that EIP-155 gives. -/
example : tx155.signed = [0xec, 0x09, 0x85, 0x04, 0xa8, 0x17, 0xc8, 0x00, 0x82, 0x52, 0x08, 0x94, 0x35, 0x35, 0x35, 0x35, 0x35, 0x35, 0x35, 0x35, 0x35,
    0x35, 0x35, 0x35, 0x35, 0x35, 0x35, 0x35, 0x35, 0x35, 0x35, 0x35, 0x88, 0x0d, 0xe0, 0xb6, 0xb3, 0xa7, 0x64, 0x00, 0x00, 0x80, 0x01, 0x80, 0x80] := by
  decide +kernel

theorem tx155_ok : tx155.Ok where
  nonce := by decide
  price := by decide
  gas := by decide
  to := .inr rfl
  toBytes := by intro b hb; have := List.eq_of_mem_replicate hb; omega
  value := by decide
  data := nofun
  v := by decide
  r := by decide
  s := by decide
  short := by decide +kernel

def zeroWorld : World := { ctx := 0, inp := fun _ => 0, mem := fun _ => 0 }

def tx155World : World := zeroWorld.put rlpStart tx155.wire

/-- The theorem applies to it: the kernel reads it and looks for its sender. -/
example : ∃ w', Reaches type0Prog (.goto (type0Prog.addr "process_type_0_txn") [rlpStart, 77] tx155World)
      (.goto (type0Prog.addr "ecrecover") [tx155.signed.sum, 27, tx155.r, tx155.s, type0Prog.addr "store_origin@type_0", 77] w') ∧
      w'.mem 0x900000002 = 1 ∧ w'.mem 0x900000008 = 0x3535353535353535353535353535353535353535 := by
  obtain ⟨s, w', h1, rfl, h2⟩ := (C126_legacy (t := tx155) (w := tx155World) (ret := 77) (S := []) type0Prog_has tx155_ok (.inr (.inr (by decide)))
    (by decide) rfl (put_below (by decide)) (written_put (w := zeroWorld) (w' := zeroWorld) rfl rfl).here (fun _ => by show 0 < _; decide)).sure
    (by rw [LegacyTx.Hints, if_neg (by decide)]; exact ⟨fun h => absurd h (by decide), fun h => absurd h (by decide +kernel)⟩)
  exact ⟨w', h1, (h2.chain (by decide)).trans (by decide), (h2.to (by decide)).1.trans (by decide +kernel)⟩

example : { tx155 with s := halfOrder }.Ok := { tx155_ok with s := by decide, short := by decide +kernel }

end Verif.Kasm
