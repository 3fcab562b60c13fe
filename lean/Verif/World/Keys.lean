import Verif.Mpt.History
import Verif.Mpt.HashLemmas
/-!
# Typed keys and the transaction / receipt tries (`evm_arithmetization/src/tries.rs`), property C15
-/
namespace Verif.World
open Mpt (Key Bytes Node Fault H256 Entry PrefixFree)

/-- `MptKey::from_hash`. `evm_arithmetization/src/tries.rs:40-42`. `AsNibbles` (crate `u4`) yields the
high nibble of each byte first; `unpack` does the same. -/
def keyOfHash (h : H256) : Key := Mpt.unpack h.bytes

/-- `MptKey::from_txn_ix`. `evm_arithmetization/src/tries.rs:44-51`. `rlp::encode(&usize)` encodes the
minimal big-endian bytes as a string. -/
def txnKey (ix : Nat) : Key := Mpt.unpack (Rlp.str (Rlp.beBytes ix))

/-- Big-endian 32-byte form of a slot number, the argument of keccak in `from_slot_position`.
`evm_arithmetization/src/tries.rs:35-39`. -/
def slotBytes (pos : Nat) : Bytes := List.replicate (32 - (Rlp.beBytes pos).length) 0 ++ Rlp.beBytes pos

/-- `MptKey::from_slot_position`. `evm_arithmetization/src/tries.rs:35-39`. -/
def keyOfSlot (keccak : Bytes → H256) (pos : Nat) : Key := keyOfHash (keccak (slotBytes pos))

/-- `From<Address> for MptKey`. `evm_arithmetization/src/tries.rs:78-82`. -/
def keyOfAddress (keccak : Bytes → H256) (addr : Bytes) : Key := keyOfHash (keccak addr)

/-- `MptKey::into_hash`: only 64-nibble keys. `evm_arithmetization/src/tries.rs:71-76`. -/
def intoHash (k : Key) : Option Bytes := if k.length = 64 then some (Mpt.pack k) else none

theorem unpack_length (bs : Bytes) : (Mpt.unpack bs).length = 2 * bs.length := by
  induction bs with
  | nil => rfl
  | cons b bs ih => simp [Mpt.unpack, ih]; omega

theorem pack_unpack (bs : Bytes) : Mpt.pack (Mpt.unpack bs) = bs := by
  induction bs with
  | nil => rfl
  | cons b bs ih =>
    simp only [Mpt.unpack, Mpt.pack, ih, List.cons.injEq, and_true]
    have hb := b.toNat_lt
    rw [show 16 * (b.toNat / 16) + b.toNat % 16 = b.toNat by omega]
    simp

theorem unpack_append (a b : Bytes) : Mpt.unpack (a ++ b) = Mpt.unpack a ++ Mpt.unpack b := by
  induction a with
  | nil => rfl
  | cons x a ih => simp [Mpt.unpack, ih]

theorem unpack_prefix {a b : Bytes} (h : Mpt.unpack a <+: Mpt.unpack b) : a <+: b := by
  induction a generalizing b with
  | nil => exact List.nil_prefix
  | cons x a ih =>
    cases b with
    | nil => simp [Mpt.unpack] at h
    | cons y b =>
      simp only [Mpt.unpack, List.cons_prefix_cons, Fin.mk.injEq] at h
      have hx := x.toNat_lt
      have : x = y := UInt8.toNat.inj (by omega)
      subst this
      exact List.cons_prefix_cons.2 ⟨rfl, ih h.2.2⟩

theorem unpack_inj {a b : Bytes} (h : Mpt.unpack a = Mpt.unpack b) : a = b := by
  rw [← pack_unpack a, h, pack_unpack]

theorem beVal_lt (bs : Bytes) : Rlp.beVal bs < 256 ^ bs.length := by
  induction bs with
  | nil => simp [Rlp.beVal]
  | cons b bs ih =>
    rw [← List.singleton_append, Rlp.beVal_append, List.length_append, Nat.pow_add]
    have hb := b.toNat_lt
    have h1 : Rlp.beVal [b] = b.toNat := by simp [Rlp.beVal]
    have : b.toNat * 256 ^ bs.length ≤ 255 * 256 ^ bs.length := Nat.mul_le_mul_right _ (by omega)
    rw [h1]
    simp only [List.length_singleton, Nat.pow_one]
    omega

theorem beBytes_inj {a b : Nat} (h : Rlp.beBytes a = Rlp.beBytes b) : a = b := by
  rw [← Rlp.beVal_beBytes a, h, Rlp.beVal_beBytes]

theorem beBytes_mono {a b : Nat} (h : a ≤ b) : (Rlp.beBytes a).length ≤ (Rlp.beBytes b).length := by
  apply Rlp.beBytes_length_le
  have := beVal_lt (Rlp.beBytes b)
  rw [Rlp.beVal_beBytes] at this
  omega

theorem beBytes_len8 {a : Nat} (h : a < 2 ^ 64) : (Rlp.beBytes a).length ≤ 8 :=
  Rlp.beBytes_length_le _ _ (by rw [show (256 : Nat) ^ 8 = 2 ^ 64 by decide]; exact h)

theorem beBytes_sizeOk {a : Nat} (h : a < 2 ^ 64) : Rlp.SizeOk (Rlp.beBytes a) := by
  have := beBytes_len8 h
  unfold Rlp.SizeOk
  omega

/-- Length in bytes of the encoded index. -/
theorem str_len {a : Nat} (h : a < 2 ^ 64) :
    (Rlp.str (Rlp.beBytes a)).length = if a < 128 then 1 else 1 + (Rlp.beBytes a).length := by
  have h8 := beBytes_len8 h
  by_cases h0 : a = 0
  · subst h0
    have : Rlp.beBytes 0 = [] := by unfold Rlp.beBytes; rfl
    simp [this, Rlp.str, Rlp.header]
  by_cases h1 : a < 256
  · have hb : Rlp.beBytes a = [UInt8.ofNat a] := by
      rw [Rlp.beBytes, dif_neg h0]
      have : a / 256 = 0 := by omega
      rw [this, Nat.mod_eq_of_lt h1]
      unfold Rlp.beBytes; rfl
    rw [hb]
    unfold Rlp.str
    dsimp only
    rw [Rlp.toNat_ofNat h1]
    by_cases h2 : a < 128
    · simp [h2]
    · simp [h2, Rlp.header]
  · have hlen : 2 ≤ (Rlp.beBytes a).length := by
      rw [Rlp.beBytes, dif_neg h0]
      have := Rlp.beBytes_pos (a / 256) (by omega)
      simp; omega
    rw [if_neg (by omega)]
    unfold Rlp.str
    split
    · rename_i b hb; rw [hb] at hlen; simp at hlen
    · simp only [List.length_append, Rlp.header]
      rw [if_pos (by omega)]
      simp

theorem txnKey_len {a : Nat} (h : a < 2 ^ 64) : (txnKey a).length ≤ 18 := by
  unfold txnKey
  rw [unpack_length, str_len h]
  have := beBytes_len8 h
  split <;> omega

theorem txnKey_mono {a b : Nat} (hb : b < 2 ^ 64) (h : a ≤ b) :
    (txnKey a).length ≤ (txnKey b).length := by
  unfold txnKey
  rw [unpack_length, unpack_length, str_len hb, str_len (by omega)]
  have := beBytes_mono h
  split <;> split <;> omega

/-! ### C15: keys -/

/-- **C15**, transaction index keys: at most 18 nibbles, injective, and no key is a prefix of another
one. -/
theorem C15_txn_key :
    (∀ a, a < 2 ^ 64 → (txnKey a).length ≤ 18) ∧
    (∀ a b, a < 2 ^ 64 → b < 2 ^ 64 → txnKey a <+: txnKey b → a = b) := by
  refine ⟨fun a h => txnKey_len h, fun a b ha hb hp => ?_⟩
  obtain ⟨x, hx⟩ := unpack_prefix hp
  have := (Rlp.Item.str _ (beBytes_sizeOk ha)).append_inj (x := x) (x' := [])
    (.str _ (beBytes_sizeOk hb)) (by rw [hx, List.append_nil])
  exact beBytes_inj (Rlp.str_inj (beBytes_sizeOk ha) (beBytes_sizeOk hb) this.1)

/-- **C15**, hash keys: 64 nibbles, injective, and the hash can be read back. -/
theorem C15_hash_key (h h' : H256) :
    (keyOfHash h).length = 64 ∧ intoHash (keyOfHash h) = some h.bytes ∧
    (keyOfHash h = keyOfHash h' → h = h') := by
  have hl : (keyOfHash h).length = 64 := by rw [keyOfHash, unpack_length, h.len]
  refine ⟨hl, by rw [intoHash, if_pos hl, keyOfHash, pack_unpack], fun he => ?_⟩
  cases h; cases h'
  simp only [keyOfHash] at he
  simp [unpack_inj he]

theorem slotBytes_len {p : Nat} (h : p < 2 ^ 256) : (slotBytes p).length = 32 := by
  have : (Rlp.beBytes p).length ≤ 32 :=
    Rlp.beBytes_length_le _ _ (by rw [show (256 : Nat) ^ 32 = 2 ^ 256 by decide]; exact h)
  simp [slotBytes]; omega

theorem slotBytes_val (p : Nat) : Rlp.beVal (slotBytes p) = p := by
  rw [slotBytes, Rlp.beVal_append, Rlp.beVal_beBytes]
  have : ∀ n, Rlp.beVal (List.replicate n 0) = 0 := by
    intro n
    induction n with
    | zero => rfl
    | succ n ih =>
      rw [List.replicate_succ', Rlp.beVal_append, ih]
      simp [Rlp.beVal]
  rw [this]; simp

/-- **C15**, slot and address keys: two of them agree only if keccak collides on the two preimages
(the 32-byte big-endian slots, resp. the addresses), so different slots / addresses have different
keys unless a keccak collision between exactly those two strings is exhibited. -/
theorem C15_slot_and_address_keys (keccak : Bytes → H256) :
    (∀ p q, p < 2 ^ 256 → q < 2 ^ 256 → keyOfSlot keccak p = keyOfSlot keccak q →
      p = q ∨ (slotBytes p ≠ slotBytes q ∧ keccak (slotBytes p) = keccak (slotBytes q))) ∧
    (∀ a b, keyOfAddress keccak a = keyOfAddress keccak b → keccak a = keccak b) := by
  refine ⟨fun p q _ _ h => ?_, fun a b h => (C15_hash_key _ _).2.2 h⟩
  have hk := (C15_hash_key (keccak (slotBytes p)) (keccak (slotBytes q))).2.2 h
  by_cases hpq : p = q
  · exact .inl hpq
  · refine .inr ⟨fun he => hpq ?_, hk⟩
    rw [← slotBytes_val p, he, slotBytes_val]

example : txnKey 0 = [8, 0] ∧ txnKey 5 = [0, 5] := by
  simp [txnKey, Rlp.beBytes, Rlp.str, Rlp.header, Mpt.unpack]

/-! ### C15: the transaction and receipt tries -/

/-- `TransactionTrie::insert` / `ReceiptTrie::insert`.
`evm_arithmetization/src/tries.rs:196-204, 241-249`: look the key up, then insert. -/
def txnInsert (t : Node) (ix : Nat) (v : Bytes) : Except Fault (Node × Option Bytes) :=
  match Mpt.get t (txnKey ix) with
  | .error f => .error f
  | .ok prev =>
    match Mpt.insert t (txnKey ix) (.val v) with
    | .error f => .error f
    | .ok t' => .ok (t', prev)

/-- A sequence of inserts, collecting the returned previous values. -/
def txnInserts (t : Node) : List (Nat × Bytes) → Except Fault (Node × List (Option Bytes))
  | [] => .ok (t, [])
  | (ix, v) :: ops =>
    match txnInsert t ix v with
    | .error f => .error f
    | .ok (t', prev) =>
      match txnInserts t' ops with
      | .error f => .error f
      | .ok (t'', l) => .ok (t'', prev :: l)

/-- The abstract map (index to value) after a sequence of inserts, and the previous values. -/
def txnSpec (m : Nat → Option Bytes) : List (Nat × Bytes) → (Nat → Option Bytes) × List (Option Bytes)
  | [] => (m, [])
  | (ix, v) :: ops =>
    let r := txnSpec (fun i => if i = ix then some v else m i) ops
    (r.1, m ix :: r.2)

/-- Keys of transaction tries. -/
def TxnKeys (k : Key) : Prop := ∃ a, a < 2 ^ 64 ∧ k = txnKey a

theorem prefixFree_txn : PrefixFree TxnKeys := by
  rintro _ _ ⟨a, ha, rfl⟩ ⟨b, hb, rfl⟩ hp
  rw [C15_txn_key.2 a b ha hb hp]

/-- Full statement: inserts in any order behave as on a map. -/
def C15_statement : Prop :=
  ∀ ops : List (Nat × Bytes), (∀ op ∈ ops, op.1 < 2 ^ 64) →
    ∃ t, txnInserts .empty ops = .ok (t, (txnSpec (fun _ => none) ops).2)

theorem txnInsert_ok {t : Node} {m : Nat → Option Bytes} {M : Mpt.Map} {ix : Nat} {v : Bytes}
    (hix : ix < 2 ^ 64) (hr : Mpt.Rel TxnKeys t M)
    (hm : ∀ a, a < 2 ^ 64 → M (txnKey a) = m a)
    (hle : ∀ a, a < 2 ^ 64 → m a ≠ none → a ≤ ix) :
    ∃ t', txnInsert t ix v = .ok (t', m ix) ∧
      Mpt.Rel TxnKeys t' (Mpt.Op.apply M (.ins (txnKey ix) v)) := by
  have hk : TxnKeys (txnKey ix) := ⟨ix, hix, rfl⟩
  obtain ⟨t', h1, h2⟩ := hr.insert (k := txnKey ix) (v := v) prefixFree_txn hk
  refine ⟨t', ?_, h2⟩
  have hg := Mpt.get_spec hr.wf (hr.compat prefixFree_txn hk) (fun k' hk' => by
    rw [hr.look] at hk'
    have hne : M k' ≠ none := fun h => hk' (by simp [h])
    obtain ⟨a, ha, rfl⟩ := hr.keys k' hne
    rw [hm a ha] at hne
    exact txnKey_mono hix (hle a ha hne))
  unfold txnInsert
  rw [hg, h1, hr.look, hm ix hix]
  cases m ix <;> rfl

/-- **C15, proved part**: inserting transactions (receipts) in order of their index, as the decoder
does, never fails; the previous values returned and the final contents are those of a map from
indices to values. Missing: inserts out of order, see the next theorem. -/
theorem C15_txn_trie_in_order_partial (ops : List (Nat × Bytes)) (hlt : ∀ op ∈ ops, op.1 < 2 ^ 64)
    (hord : ops.Pairwise (fun a b => a.1 ≤ b.1)) :
    ∃ t, txnInserts .empty ops = .ok (t, (txnSpec (fun _ => none) ops).2) ∧
      ∀ ix, ix < 2 ^ 64 →
        Mpt.lookup t (txnKey ix) = ((txnSpec (fun _ => none) ops).1 ix).map .val := by
  have key : ∀ (ops : List (Nat × Bytes)) (t : Node) (m : Nat → Option Bytes) (M : Mpt.Map),
      (∀ op ∈ ops, op.1 < 2 ^ 64) → ops.Pairwise (fun a b => a.1 ≤ b.1) →
      Mpt.Rel TxnKeys t M → (∀ a, a < 2 ^ 64 → M (txnKey a) = m a) →
      (∀ a, m a ≠ none → ∀ op ∈ ops, a ≤ op.1) →
      ∃ t', txnInserts t ops = .ok (t', (txnSpec m ops).2) ∧
        ∀ ix, ix < 2 ^ 64 → Mpt.lookup t' (txnKey ix) = ((txnSpec m ops).1 ix).map .val := by
    intro ops
    induction ops with
    | nil =>
      intro t m M _ _ hr hm _
      exact ⟨t, rfl, fun ix hix => by rw [hr.look, hm ix hix]; rfl⟩
    | cons op ops ih =>
      obtain ⟨ix, v⟩ := op
      intro t m M hlt hord hr hm hle
      have hix : ix < 2 ^ 64 := hlt (ix, v) (by simp)
      obtain ⟨t', h1, h2⟩ := txnInsert_ok (v := v) hix hr hm
        (fun a _ hne => hle a hne (ix, v) (by simp))
      rw [List.pairwise_cons] at hord
      obtain ⟨t'', h3, h4⟩ := ih t' (fun i => if i = ix then some v else m i) _
        (fun op hop => hlt op (by simp [hop])) hord.2 h2
        (fun a ha => by
          simp only [Mpt.Op.apply]
          by_cases h : a = ix
          · simp [h]
          · have : ¬ txnKey a = txnKey ix := fun he =>
              h (C15_txn_key.2 a ix ha hix (he ▸ List.prefix_rfl))
            simp [h, this, hm a ha])
        (fun a hne op hop => by
          by_cases h : a = ix
          · rw [h]; exact hord.1 op hop
          · simp only [h, if_false] at hne
            exact hle a hne op (by simp [hop]))
      exact ⟨t'', by simp [txnInserts, h1, h3, txnSpec], h4⟩
  exact key ops .empty (fun _ => none) (fun _ => none) hlt hord (Mpt.Rel.init _)
    (fun _ _ => rfl) (fun _ h => absurd rfl h)

example : [(0, [1]), (1, [2]), (1, [3]), (200, [4]), (70000, [5])].Pairwise
    (fun (a b : Nat × Bytes) => a.1 ≤ b.1) := by decide

theorem txnKey_128 : txnKey 128 = [8, 1, 8, 0] ∧ txnKey 129 = [8, 1, 8, 1] ∧ txnKey 0 = [8, 0] := by
  simp [txnKey, Rlp.beBytes, Rlp.str, Rlp.header, Mpt.unpack]

/-- **C15 is violated** for inserts out of order: with transactions 128 and 129 present, inserting
transaction 0 panics in the preceding lookup. -/
theorem C15_violated_txn_out_of_order : ¬ C15_statement := by
  intro h
  obtain ⟨t, ht⟩ := h [(128, [1]), (129, [2]), (0, [3])] (by decide)
  have : txnInserts .empty [(128, [1]), (129, [2]), (0, [3])] = .error .panic := by
    simp only [txnInserts, txnInsert, txnKey_128.1, txnKey_128.2.1, txnKey_128.2.2]
    rfl
  rw [this] at ht
  simp at ht

end Verif.World
