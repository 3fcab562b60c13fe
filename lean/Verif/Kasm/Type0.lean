import Verif.Kasm.RlpClaims
import Verif.Kasm.Code.Type0

/-!
Transactions of the first kind: reading one, and what is signed (`asm/transactions/type_0.asm`).
-/

namespace Verif.Kasm

variable {P : Prog} {S : List Nat} {w w' : World} {ret a v n : Nat} {l l' : List Nat}

/-! ### Lengths and bytes of encodings -/

theorem beMin_mono : ∀ {m n : Nat}, m ≤ n → (beMin m).length ≤ (beMin n).length := by
  intro m
  induction m using Nat.strongRecOn with
  | _ m ih =>
    intro n h
    by_cases h0 : m = 0
    · subst h0; rw [beMin_zero]; exact Nat.zero_le _
    · rw [beMin_pos h0, beMin_pos (n := n) (by omega), List.length_append, List.length_append]
      have := ih (m / 256) (by omega) (n := n / 256) (by omega)
      simp only [List.length_singleton]; omega

theorem rlpNum_mono {m n : Nat} (h : m ≤ n) (hn : n < 2 ^ 256) : (rlpNum m).length ≤ (rlpNum n).length := by
  have one : ∀ {x}, x < 2 ^ 256 → 1 ≤ (rlpNum x).length := by
    intro x hx
    by_cases h0 : x = 0
    · subst h0; rw [rlpNum_zero]; decide
    · by_cases h1 : x < 128
      · rw [rlpNum_small h0 h1]; exact Nat.le_refl _
      · rw [rlpNum_large (by omega) hx, List.length_cons]; omega
  by_cases hm : m < 128
  · have e : (rlpNum m).length = 1 := by
      by_cases h0 : m = 0
      · subst h0; rw [rlpNum_zero]; rfl
      · rw [rlpNum_small h0 hm]; rfl
    rw [e]; exact one hn
  · rw [rlpNum_large (by omega) (by omega), rlpNum_large (by omega) hn, List.length_cons, List.length_cons]
    have := beMin_mono h; omega

theorem rlpNum_one (n : Nat) (hn : n < 2 ^ 256) : 1 ≤ (rlpNum n).length := by
  have := rlpNum_mono (Nat.zero_le n) hn
  rw [rlpNum_zero] at this; exact this

theorem rlpHeader_mono {b m n : Nat} (h : m ≤ n) : (rlpHeader b m).length ≤ (rlpHeader b n).length := by
  by_cases hm : 55 < m
  · rw [rlpHeader_long hm, rlpHeader_long (by omega), List.length_cons, List.length_cons]
    have := beMin_mono h; omega
  · rw [rlpHeader_short (by omega)]
    by_cases hn : 55 < n
    · rw [rlpHeader_long hn, List.length_singleton, List.length_cons]; omega
    · rw [rlpHeader_short (by omega)]; exact Nat.le_refl _

theorem beMin_le {k : Nat} : ∀ {n : Nat}, n < 256 ^ k → (beMin n).length ≤ k := by
  induction k with
  | zero => intro n h; rw [Nat.pow_zero] at h; obtain rfl : n = 0 := by omega
            rw [beMin_zero]; exact Nat.le_refl _
  | succ k ih =>
    intro n h
    by_cases h0 : n = 0
    · subst h0; rw [beMin_zero]; exact Nat.zero_le _
    · rw [beMin_pos h0, List.length_append, List.length_singleton]
      have := ih (n := n / 256) (by rw [Nat.pow_succ] at h; omega)
      omega

/-- All members are bytes. -/
def AllBytes (l : List Nat) : Prop := ∀ b ∈ l, b < 256

theorem AllBytes.app (h : AllBytes l) (h' : AllBytes l') : AllBytes (l ++ l') := fun b hb => by
  rcases List.mem_append.1 hb with hb | hb
  · exact h b hb
  · exact h' b hb

theorem rlpHeader_bytes {b : Nat} (hb : b ≤ 0xc0) (hn : n < 2 ^ 64) : AllBytes (rlpHeader b n) := by
  by_cases h : 55 < n
  · rw [rlpHeader_long h]
    have := beMin_le (k := 8) (n := n) (by omega)
    intro x hx
    rcases List.mem_cons.1 hx with rfl | hx
    · omega
    · exact beMin_lt n x hx
  · rw [rlpHeader_short (by omega)]
    intro x hx; simp only [List.mem_singleton] at hx; omega

theorem rlpStr_bytes (hl : AllBytes l) (hn : l.length < 2 ^ 64) : AllBytes (rlpStr l) := by
  rcases rlpStr_cases l with ⟨b, hb, -, e⟩ | e
  · rw [e]; intro x hx; simp only [List.mem_singleton] at hx; omega
  · rw [e]; exact (rlpHeader_bytes (by decide) hn).app hl

theorem rlpNum_bytes (hv : v < 2 ^ 256) : AllBytes (rlpNum v) :=
  rlpStr_bytes (beMin_lt v) (by have := beMin_le32 hv; omega)

/-! ### The rest of the input -/

/-- The input from `a` on is `l`, with a cell to spare. -/
def Rest (w : World) (a : Nat) (l : List Nat) : Prop := Span a (l.length + 1) ∧ HasBytes w a l

theorem Rest.right (h : Rest w a (l ++ l')) : Rest w (a + l.length) l' := by
  refine ⟨?_, h.2.right⟩
  have := h.1
  rw [List.length_append] at this
  exact (this.later (k := l.length) (by omega)).le (by omega)

theorem Rest.left (h : Rest w a (l ++ l')) : Rest w a l := by
  refine ⟨?_, h.2.left⟩
  have := h.1
  rw [List.length_append] at this
  exact this.le (by omega)

theorem Rest.set {b x : Nat} (h : Rest w a l) (hb : b < a) : Rest (w.set b x) a l :=
  ⟨h.1, fun i hi => by rw [← h.2 i hi]; simp only [World.set]; rw [if_neg (by omega)]⟩

theorem Rest.put {b : Nat} (h : Rest w a l) (hb : b + l'.length ≤ a) : Rest (w.put b l') a l :=
  ⟨h.1, fun i hi => by rw [← h.2 i hi]; simp only [World.put]; rw [if_neg (by omega)]⟩

theorem Rest.span (h : Rest w a l) : Span a l.length := h.1.le (Nat.le_succ _)

theorem Rest.scalar (hP : P.Rlps) (h : Rest w a (rlpNum v ++ l)) (hv : v < 2 ^ 256) :
    Reaches P (.goto (P.addr "decode_rlp_scalar") (a :: ret :: S) w) (.goto ret ((a + (rlpNum v).length) :: v :: S) w) :=
  run_decode_scalar hP hv h.left.1 h.left.2

theorem exec_keccak {c : List I} (h : SegOk a ∧ a % 2 ^ 32 + n ≤ 2 ^ 32) :
    exec P (KECCAK_GENERAL :: c) (a :: n :: S) w = exec P c (P.hash (bytesAt w (key a) n) :: S) w := by
  simp [exec, h]

/-- `asm/rlp/decode.asm:133-146`, for bytes that may begin with zeros. -/
theorem run_decode_bytes (hP : P.Rlps) (hl : AllBytes l) (h0 : 0 < l.length) (h32 : l.length ≤ 32) (ha : Rest w a l) :
    Reaches P (.goto (P.addr "decode_int_given_len") (a :: l.length :: ret :: S) w) (.goto ret ((a + l.length) :: beVal l :: S) w) := by
  have hs := ha.span
  have hlt := hs.lt
  enter hP.rlp in rlpCode
  rw [b_decode_int_given_len]
  kexec []
  rw [if_pos (by omega), wadd_small (by omega), exec_mload32 ⟨hs.2.1, h32, hs.2.2⟩, hs.key, ha.2.bytes hl]
  kexec []
  exact .refl _

/-! ### The transaction -/

/-- A transaction of the first kind, as its sender made it.  No recipient means that a contract is created. -/
structure LegacyTx where
  nonce : Nat
  price : Nat
  gas : Nat
  to : List Nat
  value : Nat
  data : List Nat
  v : Nat
  r : Nat
  s : Nat

namespace LegacyTx

/-- The part that is always signed. -/
def body (t : LegacyTx) : List Nat :=
  rlpNum t.nonce ++ (rlpNum t.price ++ (rlpNum t.gas ++ (rlpStr t.to ++ (rlpNum t.value ++ rlpStr t.data))))

/-- The transaction as it is in the block. -/
def wire (t : LegacyTx) : List Nat := rlpList (t.body ++ (rlpNum t.v ++ (rlpNum t.r ++ rlpNum t.s)))

/-- The chain for which it is signed (EIP-155). -/
def chain (t : LegacyTx) : Nat := (t.v - 35) / 2

/-- What is signed: with a chain since EIP-155, without it before. -/
def signed (t : LegacyTx) : List Nat :=
  if t.v ≤ 28 then rlpList t.body else rlpList (t.body ++ (rlpNum t.chain ++ (rlpNum 0 ++ rlpNum 0)))

/-- Which of the two points the signature is about. -/
def parity (t : LegacyTx) : Nat := if t.v ≤ 28 then t.v - 27 else (t.v - 35) % 2

structure Ok (t : LegacyTx) : Prop where
  nonce : t.nonce < 2 ^ 256
  price : t.price < 2 ^ 256
  gas : t.gas < 2 ^ 256
  to : t.to = [] ∨ t.to.length = 20
  toBytes : AllBytes t.to
  value : t.value < 2 ^ 256
  data : AllBytes t.data
  v : t.v < 2 ^ 256
  r : t.r < 2 ^ 256
  s : t.s < 2 ^ 256
  short : t.wire.length + 1 < 2 ^ 32

end LegacyTx

/-- A kernel with this code and what it calls. -/
structure Prog.Type0s (P : Prog) : Prop where
  rlps : P.Rlps
  has : P.Has type0Code

/-- The start of the input: `INITIAL_RLP_ADDR`. -/
abbrev rlpStart : Nat := 0xb00000001

/-- What has been stored before the recipient. -/
def LegacyTx.w1 (t : LegacyTx) (w : World) : World :=
  (((((w.set 0x900000000 0).set 0x900000003 t.nonce).set 0x900000004 t.price).set 0x900000005 t.price).set 0x900000006 t.gas)

/-- Up to the value. -/
def LegacyTx.w2 (t : LegacyTx) (w : World) : World :=
  ((if t.to = [] then (t.w1 w).set 0x500000024 1 else (t.w1 w).set 0x900000008 (beVal t.to)).set 0x900000009 t.value)

/-- Up to the data. -/
def LegacyTx.w3 (t : LegacyTx) (w : World) : World :=
  ((t.w2 w).set 0x90000000a t.data.length).put 0xa00000000 t.data

section
variable {t : LegacyTx} {k : Nat}

theorem rest_w1 (h : Rest w a l) (ha : rlpStart ≤ a) : Rest (t.w1 w) a l := by
  simp only [rlpStart] at ha
  exact ((((h.set (by omega)).set (by omega)).set (by omega)).set (by omega)).set (by omega)

theorem rest_w2 (h : Rest w a l) (ha : rlpStart ≤ a) : Rest (t.w2 w) a l := by
  have h1 := rest_w1 (t := t) h ha
  simp only [rlpStart] at ha
  simp only [LegacyTx.w2]
  refine Rest.set ?_ (by omega)
  split
  · exact h1.set (by omega)
  · exact h1.set (by omega)

theorem rest_w3 (h : Rest w a l) (ha : rlpStart ≤ a) (hd : t.data.length < 2 ^ 32) : Rest (t.w3 w) a l := by
  have h1 := rest_w2 (t := t) h ha
  simp only [rlpStart] at ha
  exact (h1.set (by omega)).put (by omega)

/-- `asm/transactions/type_0.asm:14-29`. -/
theorem run_type0_head (hP : P.Type0s) (hm : Rest w rlpStart t.wire) :
    Reaches P (.goto (P.addr "process_type_0_txn") (rlpStart :: ret :: S) w)
      (.goto (P.addr "type_0@1.after") ((rlpStart + (rlpHeader 0xc0 (t.body ++ (rlpNum t.v ++ (rlpNum t.r ++ rlpNum t.s))).length).length) ::
        (t.body ++ (rlpNum t.v ++ (rlpNum t.r ++ rlpNum t.s))).length :: ret :: S) (w.set 0x900000000 0)) := by
  enter hP.has in type0Code
  rw [b_process_type_0_txn]
  kexec [m_mstore_txn_field]
  rw [exec_mstore_at (by decide)]
  kexec []
  have h := hm.set (b := 0x900000000) (x := 0) (by decide)
  rw [LegacyTx.wire, rlpList] at h
  have hs := h.left.span
  have hl := h.span.lt
  rw [List.length_append] at hl
  exact run_decode_list hP.rlps (by omega) hs h.left.2

/-- From there to the recipient. -/
theorem run_type0_fees (hP : P.Type0s) (hn : t.nonce < 2 ^ 256) (hp : t.price < 2 ^ 256) (hg : t.gas < 2 ^ 256) (ha : rlpStart ≤ a) (hm : Rest w a (t.body ++ l)) :
    Reaches P (.goto (P.addr "type_0@1.after") (a :: n :: ret :: S) (w.set 0x900000000 0))
      (.goto (P.addr "decode_rlp_string_len") ((a + (rlpNum t.nonce ++ (rlpNum t.price ++ rlpNum t.gas)).length) :: P.addr "type_0@9.after" :: a :: ret :: S) (t.w1 w)) := by
  have ha' := ha
  simp only [rlpStart] at ha'
  enter hP.has in type0Code
  rw [b_type_0_1_after]
  kexec []
  simp only [LegacyTx.body, List.append_assoc] at hm
  have h0 := hm.set (b := 0x900000000) (x := 0) (by omega)
  refine (h0.scalar hP.rlps hn).trans ?_
  enter hP.has in type0Code
  rw [b_type_0_3_after]
  kexec [m_mstore_txn_field]
  rw [exec_mstore_at (by decide)]
  kexec []
  have h1 := (h0.right).set (b := 0x900000003) (x := t.nonce) (by omega)
  refine (h1.scalar hP.rlps hp).trans ?_
  enter hP.has in type0Code
  rw [b_type_0_5_after]
  kexec [m_mstore_txn_field]
  rw [exec_mstore_at (by decide)]
  kexec []
  rw [exec_mstore_at (by decide)]
  kexec []
  have h2 := ((h1.right).set (b := 0x900000004) (x := t.price) (by omega)).set (b := 0x900000005) (x := t.price) (by omega)
  refine (h2.scalar hP.rlps hg).trans ?_
  enter hP.has in type0Code
  rw [b_type_0_7_after]
  kexec [m_mstore_txn_field]
  rw [exec_mstore_at (by decide)]
  kexec []
  rw [List.length_append, List.length_append, ← Nat.add_assoc, ← Nat.add_assoc]
  exact .refl _

theorem body_split (t : LegacyTx) : t.body = (rlpNum t.nonce ++ (rlpNum t.price ++ rlpNum t.gas)) ++ (rlpStr t.to ++ (rlpNum t.value ++ rlpStr t.data)) := by
  simp only [LegacyTx.body, List.append_assoc]

/-- The recipient. -/
theorem run_type0_to (hP : P.Type0s) (ht : t.Ok) (ha : rlpStart ≤ a) (hm : Rest w a (rlpStr t.to ++ l)) :
    Reaches P (.goto (P.addr "decode_rlp_string_len") (a :: P.addr "type_0@9.after" :: S) w)
      (.goto (P.addr "decode_rlp_scalar") ((a + (rlpStr t.to).length) :: P.addr "type_0@11.after" :: S)
        (if t.to = [] then w.set 0x500000024 1 else w.set 0x900000008 (beVal t.to))) := by
  have ha' := ha
  simp only [rlpStart] at ha'
  obtain ⟨b, e, hb, h⟩ := run_decode_string (ret := P.addr "type_0@9.after") (S := S) hP.rlps hm.left.span hm.left.2
  refine h.trans ?_
  enter hP.has in type0Code
  rw [b_type_0_9_after]
  kexec [m_eq_const]
  rcases ht.to with h0 | h20
  · rw [h0]
    rw [h0] at e
    rw [if_neg (by decide), if_pos rfl]
    enter hP.has in type0Code
    rw [b_type_0_8_contract_creation]
    kexec [m_mstore_global_metadata, b_type_0_8_end]
    rw [exec_mstore_at (by decide)]
    kexec []
    rw [← e]
    exact .refl _
  · have hne : t.to ≠ [] := by intro h; rw [h] at h20; cases h20
    have hb' : Rest w b t.to := by
      refine ⟨?_, hb⟩
      have hs := hm.left.1
      rw [rlpStr_short (by omega) (by omega), List.length_cons] at hs e
      obtain rfl : b = a + 1 := by omega
      exact (hs.later (k := 1) (by omega)).le (by omega)
    rw [if_neg hne, if_pos (by omega), if_pos (by omega)]
    refine (run_decode_bytes hP.rlps ht.toBytes (by omega) (by omega) hb').trans ?_
    enter hP.has in type0Code
    rw [b_type_0_8_with_scalar]
    kexec [m_mstore_txn_field]
    rw [exec_mstore_at (by decide)]
    kexec []
    enter hP.has in type0Code
    rw [b_type_0_8_end]
    kexec []
    rw [← e]
    exact .refl _

/-- The value and the data. -/
theorem run_type0_data (hP : P.Type0s) (ht : t.Ok) (hc : w.ctx = 0) (hd : t.data.length < 2 ^ 32) (ha : rlpStart ≤ a)
    (hm : Rest w a (rlpNum t.value ++ (rlpStr t.data ++ l))) :
    Reaches P (.goto (P.addr "decode_rlp_scalar") (a :: P.addr "type_0@11.after" :: S) w)
      (.goto (P.addr "type_0@12.after") ((a + (rlpNum t.value ++ rlpStr t.data).length) :: S)
        (((w.set 0x900000009 t.value).set 0x90000000a t.data.length).put 0xa00000000 t.data)) := by
  have ha' := ha
  simp only [rlpStart] at ha'
  refine (hm.scalar hP.rlps ht.value).trans ?_
  enter hP.has in type0Code
  rw [b_type_0_11_after]
  kexec [m_mstore_txn_field]
  rw [exec_mstore_at (by decide)]
  kexec []
  have h1 := (hm.right).set (b := 0x900000009) (x := t.value) (by omega)
  obtain ⟨b, e, hb, h⟩ := run_decode_string (ret := P.addr "type_0@13.after") (S := S) hP.rlps h1.left.span h1.left.2
  refine h.trans ?_
  have hs := h1.left.1
  have hlt := hs.lt
  have hsb : Span b (t.data.length + 1) := by
    rcases rlpStr_cases t.data with ⟨x, hx, ex, e'⟩ | e'
    · rw [e', ex] at e
      simp only [List.length_singleton] at e
      obtain rfl : b = a + (rlpNum t.value).length := by omega
      rw [ex, List.length_singleton]; rw [e', List.length_singleton] at hs; exact hs
    · rw [e', List.length_append] at hs e
      obtain rfl : b = a + (rlpNum t.value).length + (rlpHeader 0x80 t.data.length).length := by omega
      exact (hs.later (by omega)).le (by omega)
  have hbge : rlpStart ≤ b := by
    rcases rlpStr_cases t.data with ⟨x, hx, ex, e'⟩ | e'
    · rw [e', ex] at e
      simp only [List.length_singleton] at e
      omega
    · rw [e', List.length_append] at e
      omega
  simp only [rlpStart] at hbge
  enter hP.has in type0Code
  rw [b_type_0_13_after]
  kexec [m_mstore_txn_field]
  rw [exec_mstore_at (by decide)]
  kexec []
  have hc2 : (((w.set 0x900000009 t.value).set 0x90000000a t.data.length).ctx) = 0 := hc
  rw [hc2, wadd_small (a := b) (by omega), Nat.zero_mul]
  have z : ∀ {x}, x < 2 ^ 256 → wadd 0 x = x := fun hx => by rw [wadd_small (by omega), Nat.zero_add]
  rw [z (by decide), z (by omega)]
  have hcells : cellsAt ((w.set 0x900000009 t.value).set 0x90000000a t.data.length) b t.data.length = t.data := by
    refine List.ext_getElem cellsAt_length fun i h1 h2 => ?_
    have e1 := hb i h2
    rw [List.getD_eq_getElem?_getD, List.getElem?_eq_getElem h2, Option.getD_some] at e1
    simp only [cellsAt, List.getElem_map, List.getElem_range]
    rw [← e1, World.set]
    simp only []
    rw [if_neg (by omega)]
  have hcopy : ((w.set 0x900000009 t.value).set 0x90000000a t.data.length).copy 0xa00000000 b t.data.length
      = ((w.set 0x900000009 t.value).set 0x90000000a t.data.length).put 0xa00000000 t.data := by
    rw [put_copy, hcells]
  refine (run_memcpy_bytes hP.rlps.copies t.data.length 0xa00000000 b _ ⟨by decide, by decide, by omega⟩ (hsb.le (Nat.le_succ _)) (.inl (by omega)) ?_).trans ?_
  · intro i hi
    rw [← cellsAt_getD hi, hcells, List.getD_eq_getElem?_getD, List.getElem?_eq_getElem hi, Option.getD_some]
    exact ht.data _ (List.getElem_mem hi)
  · rw [hcopy, List.length_append, show a + ((rlpNum t.value).length + (rlpStr t.data).length) = b + t.data.length by omega]
    exact .refl _

/-- Half the order of the curve, rounded up. -/
abbrev halfOrder : Nat := 0x7fffffffffffffffffffffffffffffff5d576e7357a4501ddfe92f46681b20a1

/-- What is stored of `v`. -/
def LegacyTx.w4 (t : LegacyTx) (w : World) : World :=
  if t.v ≤ 28 then w.set 0x90000000c t.parity else ((w.set 0x900000001 1).set 0x900000002 t.chain).set 0x90000000c t.parity

/-- `asm/transactions/type_0.asm:37-78`. -/
theorem run_type0_v (hP : P.Type0s) (ht : t.Ok) (hv : t.v = 27 ∨ t.v = 28 ∨ 35 ≤ t.v) (ha : rlpStart ≤ a) (hm : Rest w a (rlpNum t.v ++ l)) :
    Reaches P (.goto (P.addr "type_0@12.after") (a :: S) w)
      (.goto (P.addr "decode_rlp_scalar") ((a + (rlpNum t.v).length) :: P.addr "type_0@16.after" :: a :: S) (t.w4 w)) := by
  have ha' := ha
  simp only [rlpStart] at ha'
  have hv2 := ht.v
  enter hP.has in type0Code
  rw [b_type_0_12_after]
  kexec []
  refine (hm.scalar hP.rlps ht.v).trans ?_
  enter hP.has in type0Code
  rw [b_type_0_14_after]
  kexec [m_gt_const, m_sub_const, m_mstore_txn_field]
  by_cases h : t.v ≤ 28
  · rw [if_pos h, exec_mstore_at (by decide)]
    kexec []
    enter hP.has in type0Code
    rw [b_decode_r_and_s]
    kexec []
    rw [wsub_small (by omega) (by omega), LegacyTx.w4, if_pos h, LegacyTx.parity, if_pos h]
    exact .refl _
  · rw [if_neg h]
    enter hP.has in type0Code
    rw [b_process_v_new_style]
    kexec [m_mstore_txn_field, m_sub_const, m_div2, m_mod_const, b_decode_r_and_s]
    rw [exec_mstore_at (by decide)]
    kexec []
    rw [exec_mstore_at (by decide)]
    kexec []
    rw [exec_mstore_at (by decide)]
    kexec []
    rw [wsub_small (by omega) (by omega), LegacyTx.w4, if_neg h, LegacyTx.parity, if_neg h, LegacyTx.chain]
    exact .refl _

/-- `asm/transactions/type_0.asm:79-85`: the signature. -/
theorem run_type0_rs (hP : P.Type0s) (ht : t.Ok) (hs : t.s < halfOrder) (ha : rlpStart ≤ a) (hm : Rest w a (rlpNum t.r ++ (rlpNum t.s ++ l))) :
    Reaches P (.goto (P.addr "decode_rlp_scalar") (a :: P.addr "type_0@16.after" :: S) w)
      (exec P b_type_0_compute_signed_data S ((w.set 0x90000000d t.r).set 0x90000000e t.s)) := by
  have ha' := ha
  simp only [rlpStart] at ha'
  simp only [halfOrder] at hs
  refine (hm.scalar hP.rlps ht.r).trans ?_
  enter hP.has in type0Code
  rw [b_type_0_16_after]
  kexec [m_mstore_txn_field]
  rw [exec_mstore_at (by decide)]
  kexec []
  have h1 := (hm.right).set (b := 0x90000000d) (x := t.r) (by omega)
  refine (h1.scalar hP.rlps ht.s).trans ?_
  enter hP.has in type0Code
  rw [b_type_0_18_after]
  kexec [m_mstore_txn_field, m_secp_scalar_half, m_assert_gt0, m_assert_nonzero0]
  rw [if_pos hs, exec_mstore_at (by decide)]
  kexec []
  exact .refl _

/-- A signature with `s` above half the order (EIP-2) stops the proof. -/
theorem run_type0_high (hP : P.Type0s) (ht : t.Ok) (hs : halfOrder ≤ t.s) (ha : rlpStart ≤ a) (hm : Rest w a (rlpNum t.r ++ (rlpNum t.s ++ l))) :
    Reaches P (.goto (P.addr "decode_rlp_scalar") (a :: P.addr "type_0@16.after" :: S) w) .panic := by
  have ha' := ha
  simp only [rlpStart] at ha'
  simp only [halfOrder] at hs
  refine (hm.scalar hP.rlps ht.r).trans ?_
  enter hP.has in type0Code
  rw [b_type_0_16_after]
  kexec [m_mstore_txn_field]
  rw [exec_mstore_at (by decide)]
  kexec []
  have h1 := (hm.right).set (b := 0x90000000d) (x := t.r) (by omega)
  refine (h1.scalar hP.rlps ht.s).trans ?_
  enter hP.has in type0Code
  rw [b_type_0_18_after]
  kexec [m_mstore_txn_field, m_secp_scalar_half, m_assert_gt0, m_assert_nonzero0]
  rw [if_neg (by omega)]
  exact rlp_panic hP.rlps

/-- `asm/transactions/type_0.asm:113-130`: the hash of what is signed. -/
theorem run_type0_finish (hP : P.Type0s) {q : List Nat} (ha : Span a (rlpList q).length) (hm : HasBytes w (a + (rlpHeader 0xc0 q.length).length) q)
    (hq : AllBytes q) (hge : rlpStart ≤ a) (hi : w.inp 0 < 2 ^ 256) :
    Returns P (55 < q.length → w.inp 0 = bits q.length)
      (exec P b_finish_rlp_list ((a + (rlpList q).length) :: (a + (rlpHeader 0xc0 q.length).length) :: ret :: S) w) (P.addr "ecrecover") fun s w' =>
      s = P.hash (rlpList q) :: wadd 27 (w.mem 0x90000000c) :: w.mem 0x90000000d :: w.mem 0x90000000e :: P.addr "store_origin@type_0" :: ret :: S ∧
        w'.ctx = w.ctx ∧ ∀ b, b < a ∨ a + (rlpList q).length ≤ b → w'.mem b = w.mem b := by
  have hl := ha.lt
  rw [b_finish_rlp_list]
  kexec []
  refine (C125_list hP.rlps ha hm hi).andThen ?_
  rintro s w' ⟨rfl, h2, h3, h4⟩
  have hql : q.length < 2 ^ 64 := by
    have := ha.2.2
    rw [rlpList, List.length_append] at this; omega
  simp only [rlpStart] at hge
  renter hP.has in type0Code
  rw [b_type_0_22_after]
  rw [exec_keccak ⟨ha.2.1, ha.2.2⟩, ha.key, h2.bytes ((rlpHeader_bytes (by decide) hql).app hq)]
  kexec [m_mload_txn_field, m_add_const]
  rw [exec_mload_at (by decide)]
  kexec []
  rw [exec_mload_at (by decide)]
  kexec []
  rw [exec_mload_at (by decide)]
  kexec []
  rw [h4 _ (by omega), h4 _ (by omega), h4 _ (by omega)]
  exact .ret ⟨rfl, h3, h4⟩

theorem HasBytes.app (h : HasBytes w a l) (h' : HasBytes w (a + l.length) l') : HasBytes w a (l ++ l') := by
  intro i hi
  rw [List.length_append] at hi
  by_cases hx : i < l.length
  · rw [h i hx, List.getD_eq_getElem?_getD, List.getD_eq_getElem?_getD, List.getElem?_append_left hx]
  · rw [List.getD_eq_getElem?_getD, List.getElem?_append_right (by omega), ← List.getD_eq_getElem?_getD, ← h' _ (by omega),
      show a + l.length + (i - l.length) = a + i by omega]

theorem put_below {b : Nat} (h : b < a) : (w.put a l).mem b = w.mem b := by
  simp only [World.put]; rw [if_neg (by omega)]

/-- The hints that do not stop the proof: the number of bits of the chain, if it is 128 or more, and of the length of what is signed, if it is
more than 55. -/
def LegacyTx.Hints (t : LegacyTx) (w : World) (len : Nat) : Prop :=
  if t.v ≤ 28 then 55 < len → w.inp 0 = bits len
  else (128 ≤ t.chain → w.inp 0 = bits t.chain) ∧ (55 < len → w.inp (if 128 ≤ t.chain then 1 else 0) = bits len)

/-- What is signed, without the header. -/
def LegacyTx.inner (t : LegacyTx) : List Nat :=
  if t.v ≤ 28 then t.body else t.body ++ (rlpNum t.chain ++ (rlpNum 0 ++ rlpNum 0))

theorem signed_inner (t : LegacyTx) : t.signed = rlpList t.inner := by
  rw [LegacyTx.signed, LegacyTx.inner]; split <;> rfl

theorem run_encode_zero (hP : P.Rlps) (ha : Span a 1) :
    Reaches P (.goto (P.addr "encode_rlp_scalar") (a :: 0 :: ret :: S) w) (.goto ret ((a + 1) :: S) (w.put a [0x80])) := by
  have hl := ha.lt
  enter hP.rlp in rlpCode
  rw [b_encode_rlp_scalar]
  kexec [m_gt_const, m_increment, m_add_const]
  rw [exec_set_at ha]
  kexec []
  rw [wadd_small (by omega), Nat.add_comm 1]
  exact .refl _

/-- `asm/transactions/type_0.asm:87-130`. -/
theorem run_type0_signed (hP : P.Type0s) (hcv : t.chain < 2 ^ 256) (hb : AllBytes t.body)
    (h1 : w.mem 0x900000001 = if t.v ≤ 28 then 0 else 1) (h2 : ¬ t.v ≤ 28 → w.mem 0x900000002 = t.chain)
    (ha : Span a (rlpList t.inner).length) (hm : HasBytes w (a + (rlpHeader 0xc0 t.inner.length).length) t.body) (hge : rlpStart ≤ a)
    (hi : ∀ i, w.inp i < 2 ^ 256) :
    Returns P (t.Hints w t.inner.length)
      (exec P b_type_0_compute_signed_data ((a + (rlpHeader 0xc0 t.inner.length).length + t.body.length) ::
        (a + (rlpHeader 0xc0 t.inner.length).length) :: ret :: S) w) (P.addr "ecrecover") fun s w' =>
      s = P.hash t.signed :: wadd 27 (w.mem 0x90000000c) :: w.mem 0x90000000d :: w.mem 0x90000000e :: P.addr "store_origin@type_0" :: ret :: S ∧
        w'.ctx = w.ctx ∧ ∀ b, b < a ∨ a + (rlpList t.inner).length ≤ b → w'.mem b = w.mem b := by
  have hlt := ha.lt
  have hge' := hge
  simp only [rlpStart] at hge'
  have el : (rlpList t.inner).length = (rlpHeader 0xc0 t.inner.length).length + t.inner.length := by rw [rlpList, List.length_append]
  rw [signed_inner, b_type_0_compute_signed_data]
  kexec [m_mload_txn_field]
  rw [exec_mload_at (by decide)]
  kexec []
  by_cases h : t.v ≤ 28
  · have ei : t.inner = t.body := by rw [LegacyTx.inner, if_pos h]
    rw [LegacyTx.Hints, if_pos h, h1, if_pos h, if_neg (by decide)]
    rw [ei] at ha hm hlt el ⊢
    refine .enter (l := "finish_rlp_list") (c := b_finish_rlp_list) hP.has (by simp [type0Code]) ?_
    have hf := run_type0_finish (ret := ret) (S := S) hP ha hm hb hge (hi 0)
    rw [el, ← Nat.add_assoc] at hf ⊢
    exact hf
  · have ei : t.inner = t.body ++ (rlpNum t.chain ++ (rlpNum 0 ++ rlpNum 0)) := by rw [LegacyTx.inner, if_neg h]
    rw [LegacyTx.Hints, if_neg h, h1, if_neg h, if_pos (show ¬ (1 = 0) by decide), exec_mload_at (by decide), h2 h]
    kexec []
    have eil : t.inner.length = t.body.length + ((rlpNum t.chain).length + (1 + 1)) := by
      rw [ei, List.length_append, List.length_append, List.length_append, rlpNum_zero]; rfl
    obtain ⟨n0, hn0⟩ : ∃ n0, a + (rlpHeader 0xc0 t.inner.length).length = n0 := ⟨_, rfl⟩
    rw [hn0] at hm ⊢
    have hsp : Span (n0 + t.body.length) ((rlpNum t.chain).length + (1 + 1)) := by
      have := (ha.later (k := (rlpHeader 0xc0 t.inner.length).length + t.body.length) (by omega)).le
        (k := (rlpNum t.chain).length + (1 + 1)) (by omega)
      rw [← Nat.add_assoc, hn0] at this
      exact this
    refine ((run_encode_scalar (w := w) (ret := P.addr "type_0@19.after") hP.rlps hcv (hsp.le (by omega)) (hi 0)).mono (fun hh => hh.1) fun _ _ => id).andThen ?_
    rintro s w1 ⟨rfl, rfl⟩
    have hx : ∀ x, x = (if 128 ≤ t.chain then w.next else w) → x.mem = w.mem ∧ x.ctx = w.ctx ∧ (∀ i, x.inp i < 2 ^ 256) ∧
        x.inp 0 = w.inp (if 128 ≤ t.chain then 1 else 0) := by
      rintro x rfl
      split
      · exact ⟨rfl, rfl, fun i => hi (i + 1), rfl⟩
      · exact ⟨rfl, rfl, hi, rfl⟩
    obtain ⟨w1, hw1⟩ : ∃ x, x = (if 128 ≤ t.chain then w.next else w) := ⟨_, rfl⟩
    obtain ⟨x1, x2, x3, x4⟩ := hx w1 hw1
    rw [← hw1]
    renter hP.has in type0Code
    rw [b_type_0_19_after]
    kexec []
    refine .of (run_encode_zero (ret := P.addr "type_0@20.after") hP.rlps
      ((hsp.later (k := (rlpNum t.chain).length) (by omega)).le (by omega))) ?_
    renter hP.has in type0Code
    rw [b_type_0_20_after]
    kexec []
    refine .of (run_encode_zero (ret := P.addr "type_0@21.after") hP.rlps
      ((hsp.later (k := (rlpNum t.chain).length + 1) (by omega)).le (by omega))) ?_
    renter hP.has in type0Code
    rw [b_type_0_21_after]
    have ew : ((w1.put (n0 + t.body.length) (rlpNum t.chain)).put (n0 + t.body.length + (rlpNum t.chain).length) [0x80]).put
        (n0 + t.body.length + (rlpNum t.chain).length + 1) [0x80] = w1.put (n0 + t.body.length) (rlpNum t.chain ++ (rlpNum 0 ++ rlpNum 0)) := by
      rw [put_put, show n0 + t.body.length + (rlpNum t.chain).length + 1 = n0 + t.body.length + (rlpNum t.chain ++ [0x80]).length by
        rw [List.length_append]; simp; omega, put_put, List.append_assoc, rlpNum_zero]
    rw [ew]
    have hw : HasBytes (w1.put (n0 + t.body.length) (rlpNum t.chain ++ (rlpNum 0 ++ rlpNum 0))) n0 t.inner := by
      rw [ei]
      refine HasBytes.app (fun i hi' => ?_) (written_put (w := w) x1 x2).here
      rw [put_below (by omega), ← hm i hi', x1]
    have hib : AllBytes t.inner := by
      rw [ei]
      exact hb.app ((rlpNum_bytes hcv).app ((rlpNum_bytes (by decide)).app (rlpNum_bytes (by decide))))
    rw [← hn0] at hw
    have hf := run_type0_finish (ret := ret) (S := S) hP ha hw hib hge (by exact x3 0)
    rw [show n0 + t.body.length + (rlpNum t.chain).length + 1 + 1 = a + (rlpList t.inner).length by rw [el, ← hn0]; omega]
    rw [hn0] at hf
    refine hf.mono (fun hh h55 => ?_) ?_
    · rw [show (w1.put (n0 + t.body.length) (rlpNum t.chain ++ (rlpNum 0 ++ rlpNum 0))).inp 0 = w1.inp 0 from rfl, x4]
      exact hh.2 h55
    · rintro s w' ⟨rfl, h5, h6⟩
      refine ⟨?_, h5.trans x2, fun b hb' => ?_⟩
      · rw [put_below (by omega), put_below (by omega), put_below (by omega), x1]
      · rw [h6 b hb', (written_put (w := w) x1 x2).else_ b]
        rw [List.length_append, List.length_append, rlpNum_zero, List.length_singleton]
        omega

end

end Verif.Kasm
