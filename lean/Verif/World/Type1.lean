import Verif.World.Ops
/-!
# `Type1World`: a state trie and storage tries (`evm_arithmetization/src/world.rs`, `tries.rs`)
-/
namespace Verif.World
open Mpt (Key Bytes Node Fault H256 Entry)

/-- `AccountRlp`. `evm_arithmetization/src/generation/mpt.rs:25-30`. -/
structure Acct where
  nonce : U256
  balance : U256
  storageRoot : H256
  codeHash : H256
deriving DecidableEq

/-- `AccountRlp::default`. `evm_arithmetization/src/generation/mpt.rs:40-47`. -/
def Acct.default (keccak : Bytes → H256) : Acct :=
  ⟨0, 0, Mpt.rootHash keccak .empty, keccak []⟩

/-- RLP of an integer (`rlp::encode(&U256)`, `alloy::rlp::encode(U256)`): the minimal big-endian bytes
as a string. -/
def encodeInt (x : U256) : Bytes := Rlp.str (Rlp.beBytes x.toNat)

/-- `rlp::encode(&AccountRlp)` (derived): the list of the four fields. -/
def encodeAcct (a : Acct) : Bytes :=
  Rlp.listOf (encodeInt a.nonce ++ (encodeInt a.balance ++
    (Rlp.str a.storageRoot.bytes ++ Rlp.str a.codeHash.bytes)))

/-- An integer field of the decoder of the `rlp` crate: at most 32 bytes, no leading zero. -/
def decodeU256 (b : Bytes) : Option U256 :=
  if b.length ≤ 32 ∧ b.head? ≠ some 0 then some (BitVec.ofNat 256 (Rlp.beVal b)) else none

/-- A hash field: exactly 32 bytes. -/
def decodeH256 (b : Bytes) : Option H256 := if h : b.length = 32 then some ⟨b, h⟩ else none

/-- A string item at the front of the payload. -/
def decodeStr (b : Bytes) : Option (Bytes × Bytes) :=
  match Rlp.split b with
  | some (false, s, r) => some (s, r)
  | _ => none

/-- `rlp::decode::<AccountRlp>` (derived). The `rlp` crate is external; modelled here from its
documented behaviour. -/
def decodeAcct (b : Bytes) : Option Acct :=
  match Rlp.split b with
  | some (true, p, _) => do
    let (n, p) ← decodeStr p
    let (v, p) ← decodeStr p
    let (r, p) ← decodeStr p
    let (c, _) ← decodeStr p
    return ⟨← decodeU256 n, ← decodeU256 v, ← decodeH256 r, ← decodeH256 c⟩
  | _ => none

/-- `StateMpt::get`. `evm_arithmetization/src/tries.rs:319-323`; `assert_rlp_account` panics on
invalid RLP (`tries.rs:291-293`). -/
def stateGet (t : Node) (h : H256) : Except Err (Option Acct) :=
  match ofTrie (Mpt.get t (keyOfHash h)) with
  | .error e => .error e
  | .ok none => .ok none
  | .ok (some b) =>
    match decodeAcct b with
    | none => .error .badRlp
    | some a => .ok (some a)

/-- `StateMpt::insert`. `evm_arithmetization/src/tries.rs:313-318`. -/
def stateInsert (t : Node) (h : H256) (a : Acct) : Except Err Node :=
  ofTrie (Mpt.insert t (keyOfHash h) (.val (encodeAcct a)))

/-- `Type1World`. `evm_arithmetization/src/world.rs:119-125`. The `BTreeMap` of storage tries is a
function. -/
structure World1 where
  state : Node
  storage : H256 → Option Node

/-- `BTreeMap::insert` / `remove` / `get_mut` on the storage tries. -/
def setStorage (s : H256 → Option Node) (h : H256) (t : Option Node) : H256 → Option Node :=
  fun h' => if h' = h then t else s h'

section
variable (keccak : Bytes → H256)

/-- The loop of `Type1World::new` over `StateMpt::iter`. `evm_arithmetization/src/world.rs:130-141`,
`tries.rs:341-349`. Hash items are skipped; a value at a path that is not 64 nibbles or does not
decode is a panic; a missing storage trie becomes the hash of the account's storage root; roots must
agree. -/
def newLoop : (H256 → Option Node) → List (Key × Entry) → Except Err (H256 → Option Node)
  | s, [] => .ok s
  | s, (_, .hash _) :: l => newLoop s l
  | s, (k, .val v) :: l =>
    match (intoHash k).bind decodeH256, decodeAcct v with
    | some h, some a =>
      let t := (s h).getD (.hash a.storageRoot)
      if Mpt.rootHash keccak t = a.storageRoot then newLoop (setStorage s h (some t)) l
      else .error .badInput
    | _, _ => .error .badRlp

/-- `Type1World::new`, given the items of the state trie. `evm_arithmetization/src/world.rs:128-143`.-/
def new1 (state : Node) (items : List (Key × Entry)) (storage : H256 → Option Node) :
    Except Err World1 := do
  return ⟨state, ← newLoop keccak storage items⟩

/-- `on_storage`. `evm_arithmetization/src/world.rs:156-170`. -/
def onStorage {α} (w : World1) (addr : Addr) (f : Node → Except Err (Node × α)) :
    Except Err (World1 × α) := do
  let h := keccak addr
  match ← stateGet w.state h with
  | none => .error .noAccount
  | some a =>
    match w.storage h with
    | none => .error .noStorage
    | some t =>
      let (t', r) ← f t
      let st ← stateInsert w.state h { a with storageRoot := Mpt.rootHash keccak t' }
      return (⟨st, setStorage w.storage h (some t')⟩, r)

/-- Read-or-default, modify, write: the common body of `update_balance`, `update_nonce` and
`set_code`. `evm_arithmetization/src/world.rs:196-201`. -/
def onAcct (w : World1) (addr : Addr) (f : Acct → Except Err Acct) : Except Err World1 := do
  let h := keccak addr
  let a := (← stateGet w.state h).getD (Acct.default keccak)
  let a' ← f a
  return { w with state := ← stateInsert w.state h a' }

/-- The masking loop of `mask_storage`. `evm_arithmetization/src/world.rs:266-270`. -/
def maskLoop (s : H256 → Option Node) : List (Addr × List Key) → Except Err (H256 → Option Node)
  | [] => .ok s
  | (a, ks) :: ms =>
    match s (keccak a) with
    | none => maskLoop s ms
    | some t =>
      match ofSubset (Mpt.createSubset keccak t ks) with
      | .ok t' => maskLoop (setStorage s (keccak a) (some t')) ms
      | .error e => .error e

/-- `Either<&[u8], H256>` as a code hash: `code.right_or_else(Self::CodeHasher::hash)`.
`evm_arithmetization/src/world.rs:196-201`. -/
def codeHashOf : Bytes ⊕ H256 → H256
  | .inl b => keccak b
  | .inr h => h

/-- `impl World for Type1World`. `evm_arithmetization/src/world.rs:173-273`. The state trie uses
`CollapseToExtension` (`tries.rs:296-305`). `ss` is the strategy of the storage tries: `CollapseToExtension` if
they come from a combined witness (`trace_decoder/src/type1.rs:162`), the default `Reject` otherwise
(`core.rs:223`). Tries made by `create_storage` also have the default strategy in the code; they have no hash nodes,
so that the strategy plays no role for them. -/
def type1 (ss : Mpt.Strategy) : Ops World1 Key where
  contains w addr := do return (← stateGet w.state (keccak addr)).isSome
  updateBalance w addr f := onAcct keccak w addr (fun a => do return { a with balance := ← f a.balance })
  updateNonce w addr f := onAcct keccak w addr (fun a => do return { a with nonce := ← f a.nonce })
  setCode w addr code := onAcct keccak w addr (fun a =>
    .ok { a with codeHash := codeHashOf keccak code })
  reportingDestroy w addr := do
    let (t, r) ← ofTrie (Mpt.reportingRemove .collapseToExtension w.state (keyOfHash (keccak addr)))
    return ({ w with state := t }, r)
  createStorage w addr := .ok { w with storage := setStorage w.storage (keccak addr) (some .empty) }
  destroyStorage w addr :=
    match w.storage (keccak addr) with
    | none => .error .noStorage
    | some _ => .ok { w with storage := setStorage w.storage (keccak addr) none }
  storeInt w addr slot value := do
    let (w, _) ← onStorage keccak w addr (fun t => do
      return (← ofTrie (Mpt.insert t (keyOfSlot keccak slot.toNat) (.val (encodeInt value))), ()))
    return w
  storeHash w addr hash value := do
    let (w, _) ← onStorage keccak w addr (fun t => do
      return (← ofTrie (Mpt.insert t (keyOfHash hash) (.val (Rlp.str value.bytes))), ()))
    return w
  loadInt w addr slot :=
    match w.storage (keccak addr) with
    | none => .error .noStorage
    | some t => do
      match ← ofTrie (Mpt.get t (keyOfSlot keccak slot.toNat)) with
      | none => .error .noStorage
      | some b =>
        match (decodeStr b).bind (fun x => decodeU256 x.1) with
        | some x => .ok x
        | none => .error .badRlp
  reportingDestroySlot w addr slot :=
    onStorage keccak w addr (fun t =>
      ofTrie (Mpt.reportingRemove ss t (keyOfSlot keccak slot.toNat)))
  maskStorage w ms := do
    let keep := fun h => ms.any (fun m => keccak m.1 == h)
    let s ← maskLoop keccak (fun h => if keep h then w.storage h else none) ms
    return { w with storage := s }
  mask w ps := do return { w with state := ← ofSubset (Mpt.createSubset keccak w.state ps) }
  root w := Mpt.rootHash keccak w.state
  pathOf addr := keyOfAddress keccak addr
  codeHash := keccak

end

/-! ## Accounts survive the encoding -/

theorem beBytes_head (n : Nat) : (Rlp.beBytes n).head? ≠ some 0 := by
  induction n using Rlp.beBytes.induct with
  | case1 => simp [Rlp.beBytes]
  | case2 n h ih =>
    rw [Rlp.beBytes, dif_neg h]
    by_cases h0 : n / 256 = 0
    · have : Rlp.beBytes 0 = [] := by unfold Rlp.beBytes; rfl
      rw [h0, this]
      simp only [List.nil_append, List.head?_cons, ne_eq, Option.some.injEq]
      intro he
      have := congrArg UInt8.toNat he
      rw [Rlp.toNat_ofNat (by omega)] at this
      simp at this; omega
    · have := Rlp.beBytes_pos (n / 256) (by omega)
      cases hb : Rlp.beBytes (n / 256) with
      | nil => rw [hb] at this; simp at this
      | cons a l => rw [hb] at ih; simpa using ih

theorem decodeU256_beBytes (x : U256) : decodeU256 (Rlp.beBytes x.toNat) = some x := by
  have hl : (Rlp.beBytes x.toNat).length ≤ 32 := Rlp.beBytes_length_le _ _ (by
    rw [show (256 : Nat) ^ 32 = 2 ^ 256 by decide]; exact x.isLt)
  rw [decodeU256, if_pos ⟨hl, beBytes_head _⟩, Rlp.beVal_beBytes]
  simp

theorem decodeH256_bytes (h : H256) : decodeH256 h.bytes = some h := by
  simp [decodeH256, h.len]

theorem beBytes_u256_ok (x : U256) : Rlp.SizeOk (Rlp.beBytes x.toNat) := by
  have hl : (Rlp.beBytes x.toNat).length ≤ 32 := Rlp.beBytes_length_le _ _ (by
    rw [show (256 : Nat) ^ 32 = 2 ^ 256 by decide]; exact x.isLt)
  unfold Rlp.SizeOk; omega

theorem h256_ok (h : H256) : Rlp.SizeOk h.bytes := by
  have := h.len
  unfold Rlp.SizeOk; omega

theorem encodeInt_length (x : U256) : (encodeInt x).length ≤ 33 := by
  have hl : (Rlp.beBytes x.toNat).length ≤ 32 := Rlp.beBytes_length_le _ _ (by
    rw [show (256 : Nat) ^ 32 = 2 ^ 256 by decide]; exact x.isLt)
  unfold encodeInt Rlp.str
  split
  · split <;> simp [Rlp.header]
  · simp only [List.length_append, Rlp.header]
    rw [if_pos (by omega)]
    simp; omega

theorem strH_length (x : H256) : (Rlp.str x.bytes).length = 33 := by
  have := x.len
  generalize x.bytes = l at this
  match l, this with
  | a :: b :: l, this => simp [Rlp.str, Rlp.header, this]

theorem decode_encode (a : Acct) : decodeAcct (encodeAcct a) = some a := by
  have hok : Rlp.SizeOk (encodeInt a.nonce ++ (encodeInt a.balance ++
      (Rlp.str a.storageRoot.bytes ++ Rlp.str a.codeHash.bytes))) := by
    have h1 := encodeInt_length a.nonce
    have h2 := encodeInt_length a.balance
    simp only [Rlp.SizeOk, List.length_append, strH_length]
    omega
  have hs := Rlp.split_listOf _ [] hok
  rw [List.append_nil] at hs
  unfold decodeAcct encodeAcct
  rw [hs]
  have e4 : Rlp.split (Rlp.str a.codeHash.bytes) = some (false, a.codeHash.bytes, []) := by
    simpa using Rlp.split_str a.codeHash.bytes [] (h256_ok _)
  simp only [decodeStr, encodeInt, Rlp.split_str _ _ (beBytes_u256_ok _), Rlp.split_str _ _ (h256_ok _),
    e4, bind, Option.bind, pure, decodeU256_beBytes, decodeH256_bytes]

end Verif.World
