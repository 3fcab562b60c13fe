import Verif.Kasm.Type0Claims
import Verif.Kasm.Code.AccessList

/-!
Transactions of the second and third kind (EIP-2930, EIP-1559): what they are, and what the kernel stores of them.
-/

namespace Verif.Kasm

variable {P : Prog} {S : List Nat} {w w' : World} {ret a v n : Nat} {l l' : List Nat}

/-- A transaction of type 1 or 2, as its sender made it.  No recipient means that a contract is created.  `access` is what is inside the
access list. -/
structure TypedTx where
  type : Nat
  chain : Nat
  nonce : Nat
  tip : Nat
  fee : Nat
  gas : Nat
  to : List Nat
  value : Nat
  data : List Nat
  access : List Nat
  parity : Nat
  r : Nat
  s : Nat

namespace TypedTx

/-- Type 1 has one price, type 2 the tip for the proposer and the most that is paid in all. -/
def fees (t : TypedTx) : List Nat := if t.type = 1 then rlpNum t.tip else rlpNum t.tip ++ rlpNum t.fee

/-- The fields before the recipient. -/
def head (t : TypedTx) : List Nat := rlpNum t.chain ++ (rlpNum t.nonce ++ (t.fees ++ rlpNum t.gas))

/-- What is signed, without the header. -/
def body (t : TypedTx) : List Nat := t.head ++ (rlpStr t.to ++ (rlpNum t.value ++ (rlpStr t.data ++ rlpList t.access)))

def sig (t : TypedTx) : List Nat := rlpNum t.parity ++ (rlpNum t.r ++ rlpNum t.s)

/-- The transaction as it is in the block. -/
def wire (t : TypedTx) : List Nat := t.type :: rlpList (t.body ++ t.sig)

/-- What is signed. -/
def signed (t : TypedTx) : List Nat := t.type :: rlpList t.body

structure Ok (t : TypedTx) : Prop where
  type : t.type = 1 ∧ t.fee = t.tip ∨ t.type = 2
  chain : t.chain < 2 ^ 256
  nonce : t.nonce < 2 ^ 256
  tip : t.tip < 2 ^ 256
  fee : t.fee < 2 ^ 256
  gas : t.gas < 2 ^ 256
  to : t.to = [] ∨ t.to.length = 20
  toBytes : AllBytes t.to
  value : t.value < 2 ^ 256
  data : AllBytes t.data
  access : AllBytes t.access
  parity : 27 + t.parity < 2 ^ 256
  r : t.r < 2 ^ 256
  s : t.s < 2 ^ 256
  short : t.wire.length + 1 < 2 ^ 32

/-- What has been stored before the recipient. -/
def w1 (t : TypedTx) (w : World) : World :=
  (((((((w.set 0x900000000 t.type).set 0x900000001 1).set 0x900000002 t.chain).set 0x900000003 t.nonce).set 0x900000004 t.tip).set 0x900000005 t.fee).set 0x900000006 t.gas)

/-- Up to the value. -/
def w2 (t : TypedTx) (w : World) : World :=
  ((if t.to = [] then (t.w1 w).set 0x500000024 1 else (t.w1 w).set 0x900000008 (beVal t.to)).set 0x900000009 t.value)

/-- Up to the data. -/
def w3 (t : TypedTx) (w : World) : World :=
  ((t.w2 w).set 0x90000000a t.data.length).put 0xa00000000 t.data

end TypedTx

section
variable {t : TypedTx} {k : Nat}

theorem rest_t1 (h : Rest w a l) (ha : rlpStart ≤ a) : Rest (t.w1 w) a l := by
  simp only [rlpStart] at ha
  exact ((((((h.set (by omega)).set (by omega)).set (by omega)).set (by omega)).set (by omega)).set (by omega)).set (by omega)

theorem rest_t2 (h : Rest w a l) (ha : rlpStart ≤ a) : Rest (t.w2 w) a l := by
  have h1 := rest_t1 (t := t) h ha
  simp only [rlpStart] at ha
  simp only [TypedTx.w2]
  refine Rest.set ?_ (by omega)
  split
  · exact h1.set (by omega)
  · exact h1.set (by omega)

theorem rest_t3 (h : Rest w a l) (ha : rlpStart ≤ a) (hd : t.data.length < 2 ^ 32) : Rest (t.w3 w) a l := by
  have h1 := rest_t2 (t := t) h ha
  simp only [rlpStart] at ha
  exact (h1.set (by omega)).put (by omega)

theorem typed_data_short (hshort : t.wire.length + 1 < 2 ^ 32) : t.data.length < 2 ^ 32 := by
  rw [TypedTx.wire, List.length_cons, rlpList] at hshort
  simp only [TypedTx.body, List.length_append] at hshort
  rcases rlpStr_cases t.data with ⟨b, -, e, -⟩ | e
  · rw [e, List.length_singleton]; omega
  · rw [e, List.length_append] at hshort; omega

theorem typed_bytes (ht : t.Ok) : AllBytes t.body := by
  have hd := typed_data_short ht.short
  have h20 : t.to.length < 2 ^ 64 := by
    rcases ht.to with h | h
    · rw [h]; decide
    · rw [h]; decide
  have hal : t.access.length < 2 ^ 64 := by
    have h := ht.short
    simp only [TypedTx.wire, TypedTx.body, List.length_cons, rlpList, List.length_append] at h
    omega
  have hf : AllBytes t.fees := by
    rw [TypedTx.fees]; split
    · exact rlpNum_bytes ht.tip
    · exact (rlpNum_bytes ht.tip).app (rlpNum_bytes ht.fee)
  exact ((rlpNum_bytes ht.chain).app ((rlpNum_bytes ht.nonce).app (hf.app (rlpNum_bytes ht.gas)))).app ((rlpStr_bytes ht.toBytes h20).app
    ((rlpNum_bytes ht.value).app ((rlpStr_bytes ht.data (by omega)).app ((rlpHeader_bytes (by decide) hal).app ht.access))))

/-- What the kernel holds of a transaction before it reads the access list: its fields (`constants/txn_fields.rs:3-42`) and its data.  It has
changed nothing else. -/
structure TypedTx.Fields (t : TypedTx) (w w' : World) : Prop where
  type : w'.mem 0x900000000 = t.type
  chainGiven : w'.mem 0x900000001 = 1
  chain : w'.mem 0x900000002 = t.chain
  nonce : w'.mem 0x900000003 = t.nonce
  tip : w'.mem 0x900000004 = t.tip
  fee : w'.mem 0x900000005 = t.fee
  gas : w'.mem 0x900000006 = t.gas
  to : t.to ≠ [] → w'.mem 0x900000008 = beVal t.to ∧ w'.mem 0x500000024 = w.mem 0x500000024
  create : t.to = [] → w'.mem 0x900000008 = w.mem 0x900000008 ∧ w'.mem 0x500000024 = 1
  value : w'.mem 0x900000009 = t.value
  dataLen : w'.mem 0x90000000a = t.data.length
  data : HasBytes w' 0xa00000000 t.data
  ctx : w'.ctx = w.ctx

theorem fields_t3 : t.Fields w (t.w3 w) := by
  by_cases ht : t.to = []
  all_goals
    constructor
    case data =>
      intro i hi
      simp only [TypedTx.w3, World.put]; rw [if_pos (by omega), Nat.add_sub_cancel_left]
    all_goals
      simp [TypedTx.w3, TypedTx.w2, TypedTx.w1, ht, World.set, World.put]

theorem else_t3 {b : Nat} (h1 : b ≠ 0x500000024) (h2 : b < 0x900000000 ∨ 0x90000000e < b) (h3 : b < 0xa00000000 ∨ 0xa00000000 + t.data.length ≤ b) :
    (t.w3 w).mem b = w.mem b := by
  simp only [TypedTx.w3, TypedTx.w2, TypedTx.w1]
  split <;> simp only [World.set, World.put]
  all_goals repeat rw [if_neg (by omega)]

/-- What the reading of an access list leaves alone: the fields of the transaction, its data, the input, and whether it creates a contract. -/
structure Kept (w w' : World) : Prop where
  ctx : w'.ctx = w.ctx
  create : w'.mem 0x500000024 = w.mem 0x500000024
  mem : ∀ b, 0x900000000 ≤ b → b < 0xc00000000 → w'.mem b = w.mem b

theorem Kept.rest (h : Kept w w') (ha : rlpStart ≤ a) (hu : a + l.length ≤ 0xc00000000) (hr : Rest w a l) : Rest w' a l := by
  refine ⟨hr.1, fun i hi => ?_⟩
  simp only [rlpStart] at ha
  rw [← hr.2 i hi, h.mem _ (by omega) (by omega)]

/-- What comes with the signature.  Otherwise only the input is overwritten. -/
structure TypedTx.Signature (t : TypedTx) (w w' : World) : Prop where
  parity : w'.mem 0x90000000c = t.parity
  r : w'.mem 0x90000000d = t.r
  s : w'.mem 0x90000000e = t.s
  ctx : w'.ctx = w.ctx
  else_ : ∀ b, (b < 0x90000000c ∨ 0x90000000e < b) → (b < rlpStart ∨ rlpStart + t.wire.length ≤ b) → w'.mem b = w.mem b

/-- Where the fields begin. -/
def TypedTx.bodyAt (t : TypedTx) : Nat := rlpStart + 1 + (rlpHeader 0xc0 (t.body ++ t.sig).length).length

/-- Where the access list begins. -/
def TypedTx.listAt (t : TypedTx) : Nat := t.bodyAt + (t.head ++ (rlpStr t.to ++ (rlpNum t.value ++ rlpStr t.data))).length

theorem typed_rest (h : Rest w rlpStart t.wire) : Rest w t.bodyAt (t.body ++ t.sig) := by
  rw [TypedTx.wire, rlpList, ← List.singleton_append] at h
  exact h.right.right

end

end Verif.Kasm
