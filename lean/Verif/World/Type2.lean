import Verif.World.Ops
import Verif.Smt.Build
import Verif.Smt.Keys
import Verif.Nibbles.Props
/-!
# The sparse Merkle tree world `Type2World` (`evm_arithmetization/src/world.rs`) (C61)
-/
namespace Verif.World
open Mpt (Bytes H256)
open Smt (Nd Db Smt)

/-! ## Sorted maps -/

/-- `BTreeMap::insert`: a list sorted by `lt`, with distinct keys. -/
def SMap.insert {K V : Type} [DecidableEq K] (lt : K → K → Bool) (k : K) (v : V) : List (K × V) → List (K × V)
  | [] => [(k, v)]
  | (a, b) :: m => if k = a then (k, v) :: m else if lt k a then (k, v) :: (a, b) :: m else (a, b) :: insert lt k v m

/-- `BTreeMap::get`. -/
def SMap.get {K V : Type} [DecidableEq K] (m : List (K × V)) (k : K) : Option V :=
  match m with
  | [] => none
  | (a, b) :: m => if k = a then some b else SMap.get m k

/-- `BTreeMap::remove`. -/
def SMap.remove {K V : Type} [DecidableEq K] (m : List (K × V)) (k : K) : List (K × V) := m.filter (fun e => e.1 ≠ k)

/-! ## Model -/

/-- `Type2Entry`. `evm_arithmetization/src/world.rs:379-386`. -/
structure Entry2 where
  balance : Option U256 := none
  nonce : Option U256 := none
  codeHash : Option U256 := none
  codeLength : Option U256 := none
  storage : List (U256 × U256) := []

/-- `Type2World`. `evm_arithmetization/src/world.rs:389-393`. -/
structure World2 where
  accounts : List (Addr × Entry2) := []
  hashedOut : List (List Bool × H256) := []

/-- The order of `Address` (bytes, all of the same length). -/
def ltAddr (a b : Addr) : Bool := decide (Rlp.beVal a < Rlp.beVal b)
/-- The order of `U256`. -/
def ltU256 (a b : U256) : Bool := decide (a.toNat < b.toNat)
/-- The order of `SmtKey`: lexicographic. `evm_arithmetization/src/tries.rs:167-171`. -/
def ltBits : List Bool → List Bool → Bool
  | _, [] => false
  | [], _ :: _ => true
  | a :: as, b :: bs => (!a && b) || (a == b && ltBits as bs)

/-- `U256(arr)` of `hash.into_uint()`, as field elements. `evm_arithmetization/src/world.rs:404-409`. An element above
the order of the field is kept as it is. -/
def keyOfH256 (h : H256) : Smt.Key :=
  let x := Rlp.beVal h.bytes
  ⟨x % 2 ^ 64, x / 2 ^ 64 % 2 ^ 64, x / 2 ^ 128 % 2 ^ 64, x / 2 ^ 192 % 2 ^ 64⟩

/-- `H256::from(hashout2u(..).to_be_bytes())`. `evm_arithmetization/src/world.rs:369-372`,
`smt_trie/src/utils.rs:51-63`. -/
def h256OfKey (k : Smt.Key) : H256 :=
  ⟨Nibbles.toBE 32 (k.k0 + 2 ^ 64 * k.k1 + 2 ^ 128 * k.k2 + 2 ^ 192 * k.k3), Nibbles.toBE_length _ _⟩

/-- `addr.compat()`: the address as a number. -/
def addrBits (a : Addr) : BitVec 160 := BitVec.ofNat 160 (Rlp.beVal a)

namespace World2

/-- `self.accounts.entry(address).or_default()`, changed by `f`. -/
def upsert (w : World2) (a : Addr) (f : Entry2 → Entry2) : World2 :=
  { w with accounts := SMap.insert ltAddr a (f ((SMap.get w.accounts a).getD {})) w.accounts }

/-- `self.accounts.entry(address).and_modify(f)`. -/
def modify (w : World2) (a : Addr) (f : Entry2 → Entry2) : World2 :=
  match SMap.get w.accounts a with
  | none => w
  | some e => { w with accounts := SMap.insert ltAddr a (f e) w.accounts }

section
variable (H : Nd → Smt.Key)

/-- The entries `as_smt` sets for one account, in this order. `evm_arithmetization/src/world.rs:425-442`. -/
def fields (a : Addr) (e : Entry2) : List (Smt.Key × U256) :=
  (e.balance.toList.map (fun v => (Smt.Keys.keyBalance H (addrBits a), v))) ++
  (e.nonce.toList.map (fun v => (Smt.Keys.keyNonce H (addrBits a), v))) ++
  (e.codeHash.toList.map (fun v => (Smt.Keys.keyCode H (addrBits a), v))) ++
  (e.codeLength.toList.map (fun v => (Smt.Keys.keyCodeLength H (addrBits a), v))) ++
  e.storage.map (fun s => (Smt.Keys.keyStorage H (addrBits a) s.1, s.2))

/-- All entries `as_smt` sets. `evm_arithmetization/src/world.rs:412-443`. -/
def entries (w : World2) : List (Smt.Key × U256) := w.accounts.flatMap (fun x => fields H x.1 x.2)

/-- `Type2World::as_smt`. `evm_arithmetization/src/world.rs:398-445`. -/
def asSmt (w : World2) : Except Smt.Fault Smt :=
  Smt.build H (w.hashedOut.map (fun x => (x.1, keyOfH256 x.2))) (w.entries H)

/-- `root`. `evm_arithmetization/src/world.rs:369-372`. `none`: a panic of `as_smt`. -/
def root? (w : World2) : Option H256 :=
  match w.asSmt H with
  | .ok s => some (h256OfKey s.root)
  | .error _ => none

end

end World2

/-- `impl World for Type2World`. `evm_arithmetization/src/world.rs:275-373`. `codeHash` is
`hash_contract_bytecode`; `pathOf` is not used by this world. A panic of `root` is the hash of zeros; see `root?`. -/
def type2 (H : Nd → Smt.Key) (codeHash : Bytes → H256) : Ops World2 (List Bool) where
  contains w a := .ok (SMap.get w.accounts a).isSome
  updateBalance w a f := do
    let v ← f (((SMap.get w.accounts a).getD {}).balance.getD 0)
    return w.upsert a (fun e => { e with balance := some v })
  updateNonce w a f := do
    let v ← f (((SMap.get w.accounts a).getD {}).nonce.getD 0)
    return w.upsert a (fun e => { e with nonce := some v })
  setCode w a c := .ok (w.upsert a fun e =>
    match c with
    | .inl bytes =>
      { e with
        codeLength := some (BitVec.ofNat 256 bytes.length)
        codeHash := if bytes = [] then none else some (BitVec.ofNat 256 (Rlp.beVal (codeHash bytes).bytes)) }
    | .inr h => { e with codeHash := some (BitVec.ofNat 256 (Rlp.beVal h.bytes)) })
  reportingDestroy w a := .ok ({ w with accounts := SMap.remove w.accounts a }, none)
  createStorage w _ := .ok w
  destroyStorage w a := .ok (w.modify a (fun e => { e with storage := [] }))
  storeInt w a s v := .ok (w.upsert a (fun e => { e with storage := SMap.insert ltU256 s v e.storage }))
  storeHash w a s v := .ok (w.upsert a (fun e =>
    { e with storage := SMap.insert ltU256 (BitVec.ofNat 256 (Rlp.beVal s.bytes)) (BitVec.ofNat 256 (Rlp.beVal v.bytes)) e.storage }))
  loadInt w a s :=
    match SMap.get w.accounts a with
    | none => .error .noAccount
    | some e => .ok ((SMap.get e.storage s).getD 0)
  reportingDestroySlot w a s := .ok (w.modify a (fun e => { e with storage := SMap.remove e.storage s }), none)
  maskStorage w _ := .ok w
  mask w _ := .ok w
  root w := (w.root? H).getD ⟨List.replicate 32 0, rfl⟩
  pathOf _ := []
  codeHash := codeHash

/-! ## Specification -/

/-- What the world stores for a field of an account. -/
def World2.get (w : World2) : Addr → Entry2 := fun a => (SMap.get w.accounts a).getD {}

/-- A field of an account, by address. -/
inductive Field2 where
  | balance (a : Addr)
  | nonce (a : Addr)
  | codeHash (a : Addr)
  | codeLength (a : Addr)
  | slot (a : Addr) (s : U256)
deriving DecidableEq

/-- The value of a field. -/
def World2.field (w : World2) : Field2 → Option U256
  | .balance a => (w.get a).balance
  | .nonce a => (w.get a).nonce
  | .codeHash a => (w.get a).codeHash
  | .codeLength a => (w.get a).codeLength
  | .slot a s => SMap.get (w.get a).storage s

/-- The field of `smt_trie` it is stored under. -/
def Field2.smt : Field2 → Smt.Keys.Field
  | .balance a => .balance (addrBits a)
  | .nonce a => .nonce (addrBits a)
  | .codeHash a => .code (addrBits a)
  | .codeLength a => .codeLength (addrBits a)
  | .slot a s => .storage (addrBits a) s

/-- The operations of the world that change something, with the value passed to the closures of `update_balance` and
`update_nonce`. -/
inductive Op2 where
  | balance (a : Addr) (v : U256)
  | nonce (a : Addr) (v : U256)
  | code (a : Addr) (c : Bytes ⊕ H256)
  | destroy (a : Addr)
  | clear (a : Addr)
  | store (a : Addr) (s v : U256)
  | storeHash (a : Addr) (s v : H256)
  | unset (a : Addr) (s : U256)

/-- An operation, as a call of the interface. -/
def Op2.run (O : Ops World2 (List Bool)) (w : World2) : Op2 → Except Err World2
  | .balance a v => O.updateBalance w a (fun _ => .ok v)
  | .nonce a v => O.updateNonce w a (fun _ => .ok v)
  | .code a c => O.setCode w a c
  | .destroy a => do return (← O.reportingDestroy w a).1
  | .clear a => O.destroyStorage w a
  | .store a s v => O.storeInt w a s v
  | .storeHash a s v => O.storeHash w a s v
  | .unset a s => do return (← O.reportingDestroySlot w a s).1

def Op2.runAll (O : Ops World2 (List Bool)) : World2 → List Op2 → Except Err World2
  | w, [] => .ok w
  | w, op :: ops => do Op2.runAll O (← op.run O w) ops

/-- The address of a field. -/
def Field2.addr : Field2 → Addr
  | .balance a | .nonce a | .codeHash a | .codeLength a | .slot a _ => a

/-- What an operation should do to the fields: to set some, to erase some, to leave all others. -/
def Op2.effect (codeHash : Bytes → H256) (m : Field2 → Option U256) : Op2 → Field2 → Option U256
  | .balance a v, f => if f = .balance a then some v else m f
  | .nonce a v, f => if f = .nonce a then some v else m f
  | .code a (.inl c), f =>
    if f = .codeLength a then some (BitVec.ofNat 256 c.length)
    else if f = .codeHash a then (if c = [] then none else some (BitVec.ofNat 256 (Rlp.beVal (codeHash c).bytes)))
    else m f
  | .code a (.inr h), f => if f = .codeHash a then some (BitVec.ofNat 256 (Rlp.beVal h.bytes)) else m f
  | .destroy a, f => if f.addr = a then none else m f
  | .clear a, f => if ∃ s, f = .slot a s then none else m f
  | .store a s v, f => if f = .slot a s then some v else m f
  | .storeHash a s v, f =>
    if f = .slot a (BitVec.ofNat 256 (Rlp.beVal s.bytes)) then some (BitVec.ofNat 256 (Rlp.beVal v.bytes)) else m f
  | .unset a s, f => if f = .slot a s then none else m f

instance (a : Addr) (f : Field2) : Decidable (∃ s, f = .slot a s) :=
  match f with
  | .slot b s => if h : b = a then .isTrue ⟨s, by rw [h]⟩ else .isFalse (fun ⟨t, ht⟩ => h (by cases ht; rfl))
  | .balance _ | .nonce _ | .codeHash _ | .codeLength _ => .isFalse (fun ⟨t, ht⟩ => by cases ht)

def Op2.addr : Op2 → Addr
  | .balance a _ | .nonce a _ | .code a _ | .destroy a | .clear a | .store a _ _ | .storeHash a _ _ | .unset a _ => a

/-- The fields after a sequence of operations. -/
def Op2.effects (codeHash : Bytes → H256) (m : Field2 → Option U256) (ops : List Op2) : Field2 → Option U256 :=
  ops.foldl (Op2.effect codeHash) m

/-! ## Proofs: maps -/

section
variable {K V : Type} [DecidableEq K] {lt : K → K → Bool}

theorem SMap.get_insert (k k' : K) (v : V) (m : List (K × V)) :
    SMap.get (SMap.insert lt k v m) k' = if k' = k then some v else SMap.get m k' := by
  induction m with
  | nil => simp [SMap.insert, SMap.get]
  | cons e m ih =>
    obtain ⟨a, b⟩ := e
    simp only [SMap.insert]
    split
    · rename_i h; subst h
      simp only [SMap.get]
      split <;> rfl
    split
    · simp only [SMap.get]
    · simp only [SMap.get, ih]
      split
      · rename_i h1 h2 h3; subst h3
        rw [if_neg (fun h => h1 h.symm)]
      · rfl

theorem SMap.get_remove (k k' : K) (m : List (K × V)) :
    SMap.get (SMap.remove m k) k' = if k' = k then none else SMap.get m k' := by
  induction m with
  | nil => simp [SMap.remove, SMap.get]
  | cons e m ih =>
    obtain ⟨a, b⟩ := e
    unfold SMap.remove at ih ⊢
    by_cases h : a = k
    · subst h
      rw [List.filter_cons_of_neg (by simp), ih]
      split
      · rfl
      · rename_i h; simp only [SMap.get]; rw [if_neg h]
    · rw [List.filter_cons_of_pos (by simpa using h)]
      simp only [SMap.get, ih]
      split
      · rename_i h2; subst h2; rw [if_neg h]
      · rfl

theorem SMap.mem_insert {k : K} {v : V} {m : List (K × V)} {x : K} (h : x ∈ (SMap.insert lt k v m).map Prod.fst) :
    x = k ∨ x ∈ m.map Prod.fst := by
  induction m with
  | nil => simpa [SMap.insert] using h
  | cons e m ih =>
    obtain ⟨a, b⟩ := e
    simp only [SMap.insert] at h
    split at h
    · rename_i hk; subst hk
      exact .inr (by simpa using h)
    split at h
    · simpa using h
    · rcases List.mem_cons.1 h with rfl | h
      · exact .inr (by simp)
      · rcases ih h with h | h
        · exact .inl h
        · exact .inr (List.mem_cons_of_mem _ h)

theorem SMap.get_eq_some {m : List (K × V)} (hn : (m.map Prod.fst).Nodup) {k : K} {v : V} :
    SMap.get m k = some v ↔ (k, v) ∈ m := by
  induction m with
  | nil => simp [SMap.get]
  | cons e m ih =>
    obtain ⟨a, b⟩ := e
    rw [List.map_cons, List.nodup_cons] at hn
    simp only [SMap.get, List.mem_cons, Prod.mk.injEq]
    split
    · rename_i h; subst h
      constructor
      · intro h; cases h; exact .inl ⟨rfl, rfl⟩
      · rintro (⟨-, h⟩ | h)
        · rw [h]
        · exact absurd (List.mem_map_of_mem (f := Prod.fst) h) hn.1
    · rename_i h
      rw [ih hn.2]
      constructor
      · exact .inr
      · rintro (⟨h', -⟩ | h')
        · exact absurd h' h
        · exact h'

theorem SMap.get_none {m : List (K × V)} {k : K} : SMap.get m k = none ↔ k ∉ m.map Prod.fst := by
  induction m with
  | nil => simp [SMap.get]
  | cons e m ih =>
    obtain ⟨a, b⟩ := e
    simp only [SMap.get, List.map_cons, List.mem_cons, not_or]
    split
    · rename_i h; simp [h]
    · rename_i h; rw [ih]; exact ⟨fun h' => ⟨h, h'⟩, fun h' => h'.2⟩

theorem SMap.nodup_insert {k : K} {v : V} {m : List (K × V)} (h : (m.map Prod.fst).Pairwise (fun a b => lt a b = true))
    (irr : ∀ a b, lt a b = true → a ≠ b) (tr : ∀ a b c, lt a b = true → lt b c = true → lt a c = true)
    (tot : ∀ x, x ∈ m.map Prod.fst → x ≠ k → lt k x = true ∨ lt x k = true) :
    ((SMap.insert lt k v m).map Prod.fst).Pairwise (fun a b => lt a b = true) := by
  induction m with
  | nil => simp [SMap.insert]
  | cons e m ih =>
    obtain ⟨a, b⟩ := e
    rw [List.map_cons, List.pairwise_cons] at h
    simp only [SMap.insert]
    split
    · rename_i hk; subst hk
      rw [List.map_cons, List.pairwise_cons]; exact h
    split
    · rename_i hne hlt
      rw [List.map_cons, List.pairwise_cons, List.map_cons, List.pairwise_cons]
      refine ⟨fun x hx => ?_, h⟩
      rcases List.mem_cons.1 hx with rfl | hx
      · exact hlt
      · exact tr _ _ _ hlt (h.1 x hx)
    · rename_i hne hlt
      rw [List.map_cons, List.pairwise_cons]
      refine ⟨fun x hx => ?_, ih h.2 (fun x hx => tot x (List.mem_cons_of_mem _ hx))⟩
      rcases SMap.mem_insert hx with rfl | hx
      · rcases tot a (by simp) (fun h => hne h.symm) with h' | h'
        · exact absurd h' hlt
        · exact h'
      · exact h.1 x hx

end

/-! ## C61: the world is a map from fields to values -/

theorem World2.get_upsert (w : World2) (a b : Addr) (f : Entry2 → Entry2) :
    (w.upsert a f).get b = if b = a then f (w.get a) else w.get b := by
  unfold World2.get World2.upsert
  rw [SMap.get_insert]
  split <;> rfl

theorem World2.get_modify (w : World2) (a b : Addr) (f : Entry2 → Entry2) (hf : f {} = {}) :
    (w.modify a f).get b = if b = a then f (w.get a) else w.get b := by
  unfold World2.get World2.modify
  split
  · rename_i h
    split
    · rename_i hb; subst hb; rw [h]; exact hf.symm
    · rfl
  · rename_i e h
    simp only
    rw [SMap.get_insert, h]
    split <;> rfl

theorem World2.get_remove (w : World2) (a b : Addr) :
    ({ w with accounts := SMap.remove w.accounts a } : World2).get b = if b = a then {} else w.get b := by
  unfold World2.get
  rw [SMap.get_remove]
  split <;> rfl

theorem World2.field_eq {w w' : World2} {a : Addr} {g : Entry2} {m : Field2 → Option U256}
    (h : ∀ b, w'.get b = if b = a then g else w.get b) (hm : ∀ f, f.addr ≠ a → m f = w.field f)
    (h1 : m (.balance a) = g.balance) (h2 : m (.nonce a) = g.nonce) (h3 : m (.codeHash a) = g.codeHash)
    (h4 : m (.codeLength a) = g.codeLength) (h5 : ∀ s, m (.slot a s) = SMap.get g.storage s) (f : Field2) :
    w'.field f = m f := by
  by_cases hf : f.addr = a
  · cases f <;> (simp only [Field2.addr] at hf; subst hf; simp only [World2.field, h, if_pos]) <;> simp [h1, h2, h3, h4, h5]
  · rw [hm f hf]
    cases f <;> (simp only [Field2.addr] at hf; simp only [World2.field, h, if_neg hf])

variable {H : Nd → Smt.Key} {codeHash : Bytes → H256}

/-- One operation: it does not fail, changes the fields as specified, and leaves the hashed-out subtrees. -/
theorem run_effect (w : World2) (op : Op2) : ∃ w', op.run (type2 H codeHash) w = .ok w' ∧
    w'.hashedOut = w.hashedOut ∧ ∀ f, w'.field f = op.effect codeHash w.field f := by
  cases op with
  | balance a v =>
    refine ⟨_, rfl, rfl, World2.field_eq (World2.get_upsert w a · _) ?_ ?_ ?_ ?_ ?_ ?_⟩
    all_goals intros
    all_goals simp only [Op2.effect, World2.field, reduceCtorEq, if_false, if_true]
    all_goals try rfl
    rw [if_neg (by rintro rfl; simp_all [Field2.addr])]
  | nonce a v =>
    refine ⟨_, rfl, rfl, World2.field_eq (World2.get_upsert w a · _) ?_ ?_ ?_ ?_ ?_ ?_⟩
    all_goals intros
    all_goals simp only [Op2.effect, World2.field, reduceCtorEq, if_false, if_true]
    all_goals try rfl
    rw [if_neg (by rintro rfl; simp_all [Field2.addr])]
  | code a c =>
    cases c with
    | inl c =>
      refine ⟨_, rfl, rfl, World2.field_eq (World2.get_upsert w a · _) ?_ ?_ ?_ ?_ ?_ ?_⟩
      all_goals intros
      all_goals simp only [Op2.effect, World2.field, reduceCtorEq, if_false, if_true]
      all_goals try rfl
      rw [if_neg (by rintro rfl; simp_all [Field2.addr]), if_neg (by rintro rfl; simp_all [Field2.addr])]
    | inr h =>
      refine ⟨_, rfl, rfl, World2.field_eq (World2.get_upsert w a · _) ?_ ?_ ?_ ?_ ?_ ?_⟩
      all_goals intros
      all_goals simp only [Op2.effect, World2.field, reduceCtorEq, if_false, if_true]
      all_goals try rfl
      rw [if_neg (by rintro rfl; simp_all [Field2.addr])]
  | destroy a =>
    refine ⟨_, rfl, rfl, World2.field_eq (World2.get_remove w a) ?_ ?_ ?_ ?_ ?_ ?_⟩
    · intro f hf
      simp only [Op2.effect]
      rw [if_neg hf]
    all_goals intros
    all_goals simp only [Op2.effect, Field2.addr, if_true]
    rfl
  | clear a =>
    refine ⟨_, rfl, ?_, World2.field_eq (World2.get_modify w a · _ rfl) ?_ ?_ ?_ ?_ ?_ ?_⟩
    · unfold World2.modify; split <;> rfl
    · intro f hf
      simp only [Op2.effect]
      rw [if_neg (by rintro ⟨s, rfl⟩; simp_all [Field2.addr])]
    · simp [Op2.effect, World2.field]
    · simp [Op2.effect, World2.field]
    · simp [Op2.effect, World2.field]
    · simp [Op2.effect, World2.field]
    · intro s
      simp only [Op2.effect]
      rw [if_pos ⟨s, rfl⟩]; rfl
  | store a s v =>
    refine ⟨_, rfl, rfl, World2.field_eq (World2.get_upsert w a · _) ?_ ?_ ?_ ?_ ?_ ?_⟩
    all_goals intros
    all_goals simp only [Op2.effect, World2.field, reduceCtorEq, if_false, SMap.get_insert, Field2.slot.injEq, true_and]
    rw [if_neg (by rintro rfl; simp_all [Field2.addr])]
  | storeHash a s v =>
    refine ⟨_, rfl, rfl, World2.field_eq (World2.get_upsert w a · _) ?_ ?_ ?_ ?_ ?_ ?_⟩
    all_goals intros
    all_goals simp only [Op2.effect, World2.field, reduceCtorEq, if_false, SMap.get_insert, Field2.slot.injEq, true_and]
    rw [if_neg (by rintro rfl; simp_all [Field2.addr])]
  | unset a s =>
    refine ⟨_, rfl, ?_, World2.field_eq (World2.get_modify w a · _ rfl) ?_ ?_ ?_ ?_ ?_ ?_⟩
    · unfold World2.modify; split <;> rfl
    all_goals intros
    all_goals simp only [Op2.effect, World2.field, reduceCtorEq, if_false, SMap.get_remove, Field2.slot.injEq, true_and]
    rw [if_neg (by rintro rfl; simp_all [Field2.addr])]

/-- **C61**. After every sequence of operations, from any world, every field holds what the last operation on it left
there: a value, nothing if the account or the storage was destroyed since, or its initial value. No operation fails. -/
theorem C61_map (ops : List Op2) : ∀ w : World2, ∃ w', Op2.runAll (type2 H codeHash) w ops = .ok w' ∧
    w'.hashedOut = w.hashedOut ∧ ∀ f, w'.field f = Op2.effects codeHash w.field ops f := by
  induction ops with
  | nil => intro w; exact ⟨w, rfl, rfl, fun _ => rfl⟩
  | cons op ops ih =>
    intro w
    obtain ⟨w1, h1, h2, h3⟩ := run_effect (H := H) (codeHash := codeHash) w op
    obtain ⟨w2, h4, h5, h6⟩ := ih w1
    refine ⟨w2, ?_, h5.trans h2, fun f => ?_⟩
    · rw [Op2.runAll, h1]; exact h4
    · rw [h6, funext h3]; rfl

/-- **C61**. Reads: balance and nonce updates are given the stored value or zero, storage reads return the stored value
or zero, and only for an account that exists. -/
theorem C61_reads (w : World2) (a : Addr) :
    (∀ f, (type2 H codeHash).updateBalance w a f = (f ((w.field (.balance a)).getD 0)) >>= fun v => Op2.run (type2 H codeHash) w (.balance a v)) ∧
    (∀ f, (type2 H codeHash).updateNonce w a f = (f ((w.field (.nonce a)).getD 0)) >>= fun v => Op2.run (type2 H codeHash) w (.nonce a v)) ∧
    ((type2 H codeHash).contains w a = .ok true → ∀ s, (type2 H codeHash).loadInt w a s = .ok ((w.field (.slot a s)).getD 0)) ∧
    ((type2 H codeHash).contains w a = .ok false → ∀ s, (type2 H codeHash).loadInt w a s = .error .noAccount) ∧
    ((type2 H codeHash).contains w a = .ok false → ∀ f : Field2, f.addr = a → w.field f = none) := by
  refine ⟨fun f => rfl, fun f => rfl, fun h s => ?_, fun h s => ?_, fun h f hf => ?_⟩
  · simp only [type2, World2.field, World2.get] at h ⊢
    cases hg : SMap.get w.accounts a with
    | none => rw [hg] at h; cases h
    | some e => rfl
  · simp only [type2] at h ⊢
    cases hg : SMap.get w.accounts a with
    | none => rfl
    | some e => rw [hg] at h; cases h
  · have : SMap.get w.accounts a = none := by
      simp only [type2, Except.ok.injEq] at h
      cases hg : SMap.get w.accounts a with
      | none => rfl
      | some e => rw [hg] at h; cases h
    cases f <;> (simp only [Field2.addr] at hf; subst hf; simp only [World2.field, World2.get, this]; rfl)

/-! ## C61: the root is a function of the contents -/

/-- The representation invariant: maps are sorted and addresses have 20 bytes. -/
structure World2.Ok (w : World2) : Prop where
  sorted : (w.accounts.map Prod.fst).Pairwise (fun a b => ltAddr a b = true)
  addr : ∀ a, a ∈ w.accounts.map Prod.fst → a.length = 20
  slots : ∀ a e, (a, e) ∈ w.accounts → (e.storage.map Prod.fst).Pairwise (fun a b => ltU256 a b = true)

theorem ltAddr_ne {a b : Addr} (h : ltAddr a b = true) : a ≠ b := by
  rintro rfl; simp [ltAddr] at h

theorem ltAddr_trans {a b c : Addr} (h : ltAddr a b = true) (h' : ltAddr b c = true) : ltAddr a c = true := by
  simp only [ltAddr, decide_eq_true_eq] at *; omega

theorem beVal_inj {a b : Bytes} (hl : a.length = b.length) (h : Rlp.beVal a = Rlp.beVal b) : a = b := by
  rw [← Nibbles.toBE_beVal a, ← Nibbles.toBE_beVal b, hl, h]

/-- **C28, C61**. The hash of a witness survives the conversion to field elements and back. -/
theorem C61_hash_conversion (h : H256) : h256OfKey (keyOfH256 h) = h := by
  have hl := beVal_lt h.bytes
  rw [h.len] at hl
  have e : Rlp.beVal h.bytes % 2 ^ 64 + 2 ^ 64 * (Rlp.beVal h.bytes / 2 ^ 64 % 2 ^ 64) +
      2 ^ 128 * (Rlp.beVal h.bytes / 2 ^ 128 % 2 ^ 64) + 2 ^ 192 * (Rlp.beVal h.bytes / 2 ^ 192 % 2 ^ 64) = Rlp.beVal h.bytes := by
    omega
  obtain ⟨b, len⟩ := h
  have : (h256OfKey (keyOfH256 ⟨b, len⟩)).bytes = b := by
    refine beVal_inj (by rw [len]; exact (h256OfKey _).len) ?_
    simp only [h256OfKey, keyOfH256, Nibbles.beVal_toBE, e]
    exact Nat.mod_eq_of_lt hl
  cases hx : h256OfKey (keyOfH256 ⟨b, len⟩)
  rw [hx] at this
  cases this
  rfl

theorem ltAddr_total {a b : Addr} (hl : a.length = b.length) (h : a ≠ b) : ltAddr a b = true ∨ ltAddr b a = true := by
  simp only [ltAddr, decide_eq_true_eq]
  have : Rlp.beVal a ≠ Rlp.beVal b := fun h' => h (beVal_inj hl h')
  omega

theorem ltU256_ne {a b : U256} (h : ltU256 a b = true) : a ≠ b := by
  rintro rfl; simp [ltU256] at h

theorem ltU256_trans {a b c : U256} (h : ltU256 a b = true) (h' : ltU256 b c = true) : ltU256 a c = true := by
  simp only [ltU256, decide_eq_true_eq] at *; omega

theorem ltU256_total {a b : U256} (h : a ≠ b) : ltU256 a b = true ∨ ltU256 b a = true := by
  simp only [ltU256, decide_eq_true_eq]
  have : a.toNat ≠ b.toNat := fun h' => h (BitVec.eq_of_toNat_eq h')
  omega

theorem nodup_of_sorted {K : Type} {lt : K → K → Bool} (irr : ∀ a b, lt a b = true → a ≠ b) {l : List K}
    (h : l.Pairwise (fun a b => lt a b = true)) : l.Nodup := h.imp (irr _ _)

theorem storage_sorted_insert {st : List (U256 × U256)} (h : (st.map Prod.fst).Pairwise (fun a b => ltU256 a b = true))
    (s v : U256) : ((SMap.insert ltU256 s v st).map Prod.fst).Pairwise (fun a b => ltU256 a b = true) :=
  SMap.nodup_insert h (fun _ _ => ltU256_ne) (fun _ _ _ => ltU256_trans) (fun _ _ hx => (ltU256_total hx).symm)

theorem sorted_remove {K V : Type} [DecidableEq K] {lt : K → K → Bool} {m : List (K × V)} (k : K)
    (h : (m.map Prod.fst).Pairwise (fun a b => lt a b = true)) :
    ((SMap.remove m k).map Prod.fst).Pairwise (fun a b => lt a b = true) :=
  h.sublist (List.filter_sublist.map _)

theorem mem_of_get {K V : Type} [DecidableEq K] {m : List (K × V)} {k : K} {v : V} (h : SMap.get m k = some v) :
    (k, v) ∈ m := by
  induction m with
  | nil => cases h
  | cons e m ih =>
    obtain ⟨a, b⟩ := e
    simp only [SMap.get] at h
    split at h
    · rename_i hk; cases h; rw [hk]; exact List.mem_cons_self
    · exact List.mem_cons_of_mem _ (ih h)

theorem mem_insert_pair {K V : Type} [DecidableEq K] {lt : K → K → Bool} {m : List (K × V)} {k x : K} {v y : V}
    (h : (x, y) ∈ SMap.insert lt k v m) : (x = k ∧ y = v) ∨ (x, y) ∈ m := by
  induction m with
  | nil => simpa [SMap.insert] using h
  | cons e m ih =>
    obtain ⟨a, b⟩ := e
    simp only [SMap.insert] at h
    split at h
    · rcases List.mem_cons.1 h with h | h
      · cases h; exact .inl ⟨rfl, rfl⟩
      · exact .inr (List.mem_cons_of_mem _ h)
    split at h
    · rcases List.mem_cons.1 h with h | h
      · cases h; exact .inl ⟨rfl, rfl⟩
      · exact .inr h
    · rcases List.mem_cons.1 h with h | h
      · exact .inr (by rw [h]; exact List.mem_cons_self)
      · exact (ih h).imp id (List.mem_cons_of_mem _)

theorem World2.Ok.insert {w : World2} (hw : w.Ok) {a : Addr} (ha : a.length = 20) {e : Entry2}
    (he : (e.storage.map Prod.fst).Pairwise (fun a b => ltU256 a b = true)) :
    ({ w with accounts := SMap.insert ltAddr a e w.accounts } : World2).Ok where
  sorted := SMap.nodup_insert hw.sorted (fun _ _ => ltAddr_ne) (fun _ _ _ => ltAddr_trans)
    (fun x hx hne => (ltAddr_total ((hw.addr x hx).trans ha.symm) hne).symm)
  addr b hb := by
    rcases SMap.mem_insert hb with rfl | h
    · exact ha
    · exact hw.addr b h
  slots b e' hb := by
    rcases mem_insert_pair hb with ⟨rfl, rfl⟩ | h
    · exact he
    · exact hw.slots b e' h

theorem World2.Ok.get {w : World2} (hw : w.Ok) (a : Addr) :
    ((w.get a).storage.map Prod.fst).Pairwise (fun a b => ltU256 a b = true) := by
  unfold World2.get
  cases h : SMap.get w.accounts a with
  | none => exact .nil
  | some e => exact hw.slots a e (mem_of_get h)

theorem World2.Ok.upsert {w : World2} (hw : w.Ok) {a : Addr} (ha : a.length = 20) {f : Entry2 → Entry2}
    (hf : ∀ e : Entry2, (e.storage.map Prod.fst).Pairwise (fun a b => ltU256 a b = true) →
      ((f e).storage.map Prod.fst).Pairwise (fun a b => ltU256 a b = true)) : (w.upsert a f).Ok :=
  hw.insert ha (hf _ (hw.get a))

theorem World2.Ok.modify {w : World2} (hw : w.Ok) {a : Addr} {f : Entry2 → Entry2}
    (hf : ∀ e : Entry2, (e.storage.map Prod.fst).Pairwise (fun a b => ltU256 a b = true) →
      ((f e).storage.map Prod.fst).Pairwise (fun a b => ltU256 a b = true)) : (w.modify a f).Ok := by
  unfold World2.modify
  split
  · exact hw
  · rename_i e h
    have hm := mem_of_get h
    exact hw.insert (hw.addr a (List.mem_map_of_mem hm)) (hf _ (hw.slots a e hm))

/-- Every operation on an address of 20 bytes keeps the invariant. -/
theorem run_ok {w w' : World2} (hw : w.Ok) {op : Op2} (ha : op.addr.length = 20)
    (h : op.run (type2 H codeHash) w = .ok w') : w'.Ok := by
  cases op with
  | balance a v => cases h; exact hw.upsert ha (fun _ h => h)
  | nonce a v => cases h; exact hw.upsert ha (fun _ h => h)
  | code a c => cases h; exact hw.upsert ha (fun _ h => by cases c <;> exact h)
  | destroy a =>
    cases h
    refine ⟨sorted_remove a hw.sorted, fun b hb => hw.addr b ?_, fun b e hb => hw.slots b e ?_⟩
    · exact (List.filter_sublist.map _).subset hb
    · exact List.filter_sublist.subset hb
  | clear a => cases h; exact hw.modify (fun _ _ => .nil)
  | store a s v => cases h; exact hw.upsert ha (fun _ h => storage_sorted_insert h _ _)
  | storeHash a s v => cases h; exact hw.upsert ha (fun _ h => storage_sorted_insert h _ _)
  | unset a s => cases h; exact hw.modify (fun _ h => sorted_remove s h)

theorem runAll_ok {ops : List Op2} : ∀ {w w' : World2}, w.Ok → (∀ op, op ∈ ops → op.addr.length = 20) →
    Op2.runAll (type2 H codeHash) w ops = .ok w' → w'.Ok := by
  induction ops with
  | nil => intro w w' hw _ h; cases h; exact hw
  | cons op ops ih =>
    intro w w' hw ha h
    obtain ⟨w1, h1, h2⟩ := bind_ok.1 h
    exact ih (run_ok hw (ha op (by simp)) h1) (fun op hop => ha op (List.mem_cons_of_mem _ hop)) h2

theorem Ok.empty (hs : List (List Bool × H256)) : ({ hashedOut := hs } : World2).Ok :=
  ⟨.nil, by simp, by simp⟩

/-- The entries of one account. -/
theorem mem_fields {a : Addr} {e : Entry2} (he : (e.storage.map Prod.fst).Pairwise (fun a b => ltU256 a b = true))
    {K : Smt.Key} {v : U256} : (K, v) ∈ World2.fields H a e ↔
      (K = Smt.Keys.key H (Field2.balance a).smt ∧ e.balance = some v) ∨ (K = Smt.Keys.key H (Field2.nonce a).smt ∧ e.nonce = some v) ∨
      (K = Smt.Keys.key H (Field2.codeHash a).smt ∧ e.codeHash = some v) ∨
      (K = Smt.Keys.key H (Field2.codeLength a).smt ∧ e.codeLength = some v) ∨
      ∃ s, K = Smt.Keys.key H (Field2.slot a s).smt ∧ SMap.get e.storage s = some v := by
  have hs := fun s => SMap.get_eq_some (nodup_of_sorted (fun _ _ => ltU256_ne) he) (k := s) (v := v)
  simp only [World2.fields, List.mem_append, List.mem_map, Option.mem_toList, Field2.smt, Smt.Keys.key, hs, Prod.mk.injEq,
    Prod.exists, or_assoc]
  constructor
  · rintro (⟨x, h, rfl, rfl⟩ | ⟨x, h, rfl, rfl⟩ | ⟨x, h, rfl, rfl⟩ | ⟨x, h, rfl, rfl⟩ | ⟨s, x, h, rfl, rfl⟩)
    · exact .inl ⟨rfl, h⟩
    · exact .inr (.inl ⟨rfl, h⟩)
    · exact .inr (.inr (.inl ⟨rfl, h⟩))
    · exact .inr (.inr (.inr (.inl ⟨rfl, h⟩)))
    · exact .inr (.inr (.inr (.inr ⟨s, rfl, h⟩)))
  · rintro (⟨rfl, h⟩ | ⟨rfl, h⟩ | ⟨rfl, h⟩ | ⟨rfl, h⟩ | ⟨s, rfl, h⟩)
    · exact .inl ⟨v, h, rfl, rfl⟩
    · exact .inr (.inl ⟨v, h, rfl, rfl⟩)
    · exact .inr (.inr (.inl ⟨v, h, rfl, rfl⟩))
    · exact .inr (.inr (.inr (.inl ⟨v, h, rfl, rfl⟩)))
    · exact .inr (.inr (.inr (.inr ⟨s, v, h, rfl, rfl⟩)))

/-- The entries set by `as_smt` are the fields of the world, under their keys. -/
theorem mem_entries {w : World2} (hw : w.Ok) {K : Smt.Key} {v : U256} :
    (K, v) ∈ w.entries H ↔ ∃ f : Field2, K = Smt.Keys.key H f.smt ∧ w.field f = some v := by
  have hg := fun a e => SMap.get_eq_some (nodup_of_sorted (fun _ _ => ltAddr_ne) hw.sorted) (k := a) (v := e)
  unfold World2.entries
  rw [List.mem_flatMap]
  constructor
  · rintro ⟨⟨a, e⟩, hm, h⟩
    have hget : w.get a = e := by unfold World2.get; rw [(hg a e).2 hm]; rfl
    rcases (mem_fields (hw.slots a e hm)).1 h with h | h | h | h | ⟨s, h⟩
    · exact ⟨.balance a, by simpa [World2.field, hget] using h⟩
    · exact ⟨.nonce a, by simpa [World2.field, hget] using h⟩
    · exact ⟨.codeHash a, by simpa [World2.field, hget] using h⟩
    · exact ⟨.codeLength a, by simpa [World2.field, hget] using h⟩
    · exact ⟨.slot a s, by simpa [World2.field, hget] using h⟩
  · rintro ⟨f, hK, hf⟩
    have key : ∃ e, SMap.get w.accounts f.addr = some e ∧ w.get f.addr = e := by
      cases h : SMap.get w.accounts f.addr with
      | some e => exact ⟨e, rfl, by unfold World2.get; rw [h]; rfl⟩
      | none =>
        have hd : w.get f.addr = {} := by unfold World2.get; rw [h]; rfl
        cases f <;> (simp only [Field2.addr] at hd; simp only [World2.field, hd] at hf; cases hf)
    obtain ⟨e, h1, h2⟩ := key
    refine ⟨(f.addr, e), (hg _ _).1 h1, (mem_fields (hw.slots _ e ((hg _ _).1 h1))).2 ?_⟩
    cases f with
    | balance a => exact .inl ⟨hK, by rw [← h2]; exact hf⟩
    | nonce a => exact .inr (.inl ⟨hK, by rw [← h2]; exact hf⟩)
    | codeHash a => exact .inr (.inr (.inl ⟨hK, by rw [← h2]; exact hf⟩))
    | codeLength a => exact .inr (.inr (.inr (.inl ⟨hK, by rw [← h2]; exact hf⟩)))
    | slot a s => exact .inr (.inr (.inr (.inr ⟨s, hK, by rw [← h2]; exact hf⟩)))

/-- The fields of one account that hold something. -/
def fieldList (a : Addr) (e : Entry2) : List Field2 :=
  (e.balance.toList.map (fun _ => .balance a)) ++ (e.nonce.toList.map (fun _ => .nonce a)) ++
  (e.codeHash.toList.map (fun _ => .codeHash a)) ++ (e.codeLength.toList.map (fun _ => .codeLength a)) ++
  e.storage.map (fun s => .slot a s.1)

theorem fieldList_addr {a : Addr} {e : Entry2} {f : Field2} (h : f ∈ fieldList a e) : f.addr = a := by
  simp only [fieldList, List.mem_append, List.mem_map, or_assoc] at h
  rcases h with ⟨_, _, rfl⟩ | ⟨_, _, rfl⟩ | ⟨_, _, rfl⟩ | ⟨_, _, rfl⟩ | ⟨_, _, rfl⟩ <;> rfl

theorem fieldList_nodup {a : Addr} {e : Entry2} (he : (e.storage.map Prod.fst).Pairwise (fun a b => ltU256 a b = true)) :
    (fieldList a e).Nodup := by
  have h5 : (e.storage.map (fun s => Field2.slot a s.1)).Nodup := by
    have := nodup_of_sorted (fun _ _ => ltU256_ne) he
    have e2 : e.storage.map (fun s => Field2.slot a s.1) = (e.storage.map Prod.fst).map (Field2.slot a) := by
      rw [List.map_map]; rfl
    rw [e2]
    exact List.Pairwise.map _ (fun x y hne h => hne (by cases h; rfl)) this
  have one : ∀ (o : Option U256) (g : Field2), (o.toList.map (fun _ => g)).Nodup := by
    intro o g; cases o <;> simp
  unfold fieldList
  simp only [List.nodup_append, List.mem_append, List.mem_map, or_assoc]
  refine ⟨⟨⟨⟨one _ _, one _ _, ?_⟩, one _ _, ?_⟩, one _ _, ?_⟩, h5, ?_⟩
  · intro x hx y hy h
    subst h
    obtain ⟨_, _, rfl⟩ := hx
    obtain ⟨_, _, h⟩ := hy
    cases h
  · intro x hx y hy h
    subst h
    rcases hx with ⟨_, _, rfl⟩ | ⟨_, _, rfl⟩ <;> (obtain ⟨_, _, h⟩ := hy; cases h)
  · intro x hx y hy h
    subst h
    rcases hx with ⟨_, _, rfl⟩ | ⟨_, _, rfl⟩ | ⟨_, _, rfl⟩ <;> (obtain ⟨_, _, h⟩ := hy; cases h)
  · intro x hx y hy h
    subst h
    rcases hx with ⟨_, _, rfl⟩ | ⟨_, _, rfl⟩ | ⟨_, _, rfl⟩ | ⟨_, _, rfl⟩ <;> (obtain ⟨_, _, h⟩ := hy; cases h)

theorem fields_keys (a : Addr) (e : Entry2) :
    (World2.fields H a e).map Prod.fst = (fieldList a e).map (fun f => Smt.Keys.key H f.smt) := by
  simp only [World2.fields, fieldList, List.map_append, List.map_map]
  rfl

theorem entries_keys {w : World2} :
    (w.entries H).map Prod.fst = (w.accounts.flatMap (fun x => fieldList x.1 x.2)).map (fun f => Smt.Keys.key H f.smt) := by
  unfold World2.entries
  rw [List.map_flatMap, List.map_flatMap]
  simp only [fields_keys]

/-- The fields of the world that hold something. -/
def World2.Stored (w : World2) (f : Field2) : Prop := w.field f ≠ none

theorem stored_of_mem {w : World2} (hw : w.Ok) {f : Field2} (h : f ∈ w.accounts.flatMap (fun x => fieldList x.1 x.2)) :
    w.Stored f ∧ f.addr.length = 20 := by
  obtain ⟨⟨a, e⟩, hm, h'⟩ := List.mem_flatMap.1 h
  clear h
  have h := h'
  have hg : w.get a = e := by
    unfold World2.get
    rw [(SMap.get_eq_some (nodup_of_sorted (fun _ _ => ltAddr_ne) hw.sorted)).2 hm]; rfl
  refine ⟨?_, by rw [fieldList_addr h]; exact hw.addr a (List.mem_map_of_mem hm)⟩
  simp only [fieldList, List.mem_append, List.mem_map, or_assoc, Option.mem_toList] at h
  unfold World2.Stored
  rcases h with ⟨v, h, rfl⟩ | ⟨v, h, rfl⟩ | ⟨v, h, rfl⟩ | ⟨v, h, rfl⟩ | ⟨⟨s, v⟩, h, rfl⟩ <;> simp only [World2.field, hg]
  · rw [h]; simp
  · rw [h]; simp
  · rw [h]; simp
  · rw [h]; simp
  · rw [(SMap.get_eq_some (nodup_of_sorted (fun _ _ => ltU256_ne) (hw.slots a e hm))).2 h]; simp

theorem addrBits_inj {a b : Addr} (ha : a.length = 20) (hb : b.length = 20) (h : addrBits a = addrBits b) : a = b := by
  have h1 := Nibbles.beVal_lt a
  have h2 := Nibbles.beVal_lt b
  rw [ha] at h1
  rw [hb] at h2
  have := congrArg BitVec.toNat h
  simp only [addrBits, BitVec.toNat_ofNat] at this
  rw [Nat.mod_eq_of_lt (Nat.lt_of_lt_of_le h1 (by decide)), Nat.mod_eq_of_lt (Nat.lt_of_lt_of_le h2 (by decide))] at this
  exact beVal_inj (ha.trans hb.symm) this

theorem smt_inj {f g : Field2} (hf : f.addr.length = 20) (hg : g.addr.length = 20) (h : f.smt = g.smt) : f = g := by
  cases f <;> cases g <;> simp only [Field2.smt, Field2.addr, Smt.Keys.Field.balance.injEq, Smt.Keys.Field.nonce.injEq,
    Smt.Keys.Field.code.injEq, Smt.Keys.Field.codeLength.injEq, Smt.Keys.Field.storage.injEq, reduceCtorEq] at *
  all_goals first
    | rw [addrBits_inj hf hg h]
    | rw [addrBits_inj hf hg h.1, h.2]

/-- The keys of the fields stored in the world were computed without collisions, and are canonical. -/
structure World2.KeysOk (H : Nd → Smt.Key) (w : World2) : Prop where
  coll : ∀ f g, w.Stored f → w.Stored g → Smt.NoColl (Smt.Keys.hashed H f.smt ++ Smt.Keys.hashed H g.smt)
  valid : ∀ f, w.Stored f → (Smt.Keys.key H f.smt).Valid

theorem fieldLists_nodup {w : World2} (hw : w.Ok) : (w.accounts.flatMap (fun x => fieldList x.1 x.2)).Nodup := by
  unfold List.Nodup
  rw [List.pairwise_flatMap]
  refine ⟨fun x hx => fieldList_nodup (hw.slots x.1 x.2 hx), ?_⟩
  have := hw.sorted
  rw [List.pairwise_map] at this
  refine this.imp (fun {x y} hlt f hf g hg he => ?_)
  subst he
  exact ltAddr_ne hlt ((fieldList_addr hf).symm.trans (fieldList_addr hg))

theorem entries_nodup {w : World2} (hw : w.Ok) (hk : w.KeysOk H) : ((w.entries H).map Prod.fst).Nodup := by
  rw [entries_keys]
  have hn := fieldLists_nodup hw
  have key : ∀ l : List Field2, (∀ f, f ∈ l → w.Stored f ∧ f.addr.length = 20) → l.Nodup →
      (l.map (fun f => Smt.Keys.key H f.smt)).Nodup := by
    intro l
    induction l with
    | nil => simp
    | cons f l ih =>
      intro hl hn
      rw [List.nodup_cons] at hn
      rw [List.map_cons, List.nodup_cons]
      refine ⟨fun hm => ?_, ih (fun g hg => hl g (List.mem_cons_of_mem _ hg)) hn.2⟩
      obtain ⟨g, hg, he⟩ := List.mem_map.1 hm
      have h1 := hl f List.mem_cons_self
      have h2 := hl g (List.mem_cons_of_mem _ hg)
      have := Smt.Keys.C59_keys_distinct H g.smt f.smt (hk.coll g f h2.1 h1.1) he
      exact hn.1 (smt_inj h2.2 h1.2 this ▸ hg)
  exact key _ (fun f hf => stored_of_mem hw hf) hn

/-- Whatever prefix of the hashes and entries was set, no collision happened so far. -/
def World2.BuildsWithoutCollisions (H : Nd → Smt.Key) (w : World2) : Prop :=
  ∀ hs' es', hs' <+: w.hashedOut.map (fun x => (x.1, keyOfH256 x.2)) → es' <+: w.entries H →
    ∀ p, Smt.build H hs' es' = .ok p → Smt.NoColl p.db

/-- **C61**. For a world without hashed-out subtrees, reached by any sequence of operations, the root is the Merkle
root of the map that sends the key of every field to its value; it does not depend on anything else. -/
theorem C61_root {ops : List Op2} (ha : ∀ op, op ∈ ops → op.addr.length = 20) {w : World2}
    (hr : Op2.runAll (type2 H codeHash) {} ops = .ok w) (hk : w.KeysOk H) (hb : w.BuildsWithoutCollisions H)
    (L : List (Smt.Key × U256)) (hn : L.Nodup)
    (hL : ∀ K v, (K, v) ∈ L ↔ v ≠ 0 ∧ ∃ f : Field2, K = Smt.Keys.key H f.smt ∧
      Op2.effects codeHash (fun _ => none) ops f = some v) :
    w.root? H = some (h256OfKey (Smt.merkle H 256 0 L)) := by
  have hw := runAll_ok (Ok.empty []) ha hr
  obtain ⟨w', e1, e2, e3⟩ := C61_map (H := H) (codeHash := codeHash) ops {}
  rw [hr] at e1
  cases e1
  have he : w.hashedOut = [] := e2
  have hfield : ∀ f, w.field f = Op2.effects codeHash (fun _ => none) ops f := by
    intro f
    rw [e3]
    have : World2.field {} = fun _ => none := by
      funext f; cases f <;> rfl
    rw [this]
  unfold World2.BuildsWithoutCollisions at hb
  rw [he] at hb
  obtain ⟨s, t, b1, b2, b3, b4⟩ := Smt.build_spec (H := H) (hs := []) (es := w.entries H) (by simp) .nil
    (fun e hm => ⟨by
      obtain ⟨f, h1, h2⟩ := (mem_entries hw (K := e.1) (v := e.2)).1 hm
      rw [h1]; exact hk.valid f (by unfold World2.Stored; rw [h2]; simp), by simp⟩) (entries_nodup hw hk) hb
  have hf : ∀ h, ¬ t.HashIn h := fun h hh => by
    obtain ⟨q, hq⟩ := Smt.hashIn_iff.1 hh
    have := (b3 q h).1 hq
    cases this
  have := (Smt.merkle_tree (H := H) (p := []) b2.wf hf hn (fun K v => by
    rw [hL, b4, mem_entries hw]
    simp only [hfield])).1
  have hs : w.asSmt H = .ok s := by unfold World2.asSmt; rw [he]; exact b1
  unfold World2.root?
  rw [hs]
  simp only
  rw [b2.root]
  exact congrArg (fun x => some (h256OfKey x)) this.symm

/-- **C28, C57**. A world made from a witness for the full state `s` has the root of `s`. -/
theorem root_of_witness {ops : List Smt.Op} {s : Smt} (hv : ∀ op, op ∈ ops → op.key.Valid)
    (hr : Smt.run H .empty ops = .ok s) (hc : Smt.NoColl s.db) {w : World2}
    (hw : Smt.Witness H (Smt.lastVal (fun _ => 0) ops) (w.hashedOut.map (fun x => (x.1, keyOfH256 x.2))) (w.entries H))
    (hb : w.BuildsWithoutCollisions H) : w.root? H = some (h256OfKey s.root) := by
  obtain ⟨p, h1, h2, -⟩ := Smt.C57_build hv hr hc hw hb
  unfold World2.root? World2.asSmt
  rw [h1]
  simp only
  rw [h2]

end Verif.World
