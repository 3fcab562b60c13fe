import Verif.World.Type1
import Verif.Mpt.Fixed
import Verif.Mpt.Iter
/-!
# Effect of the operations of `Type1World` on accounts and slots
-/
namespace Verif.World
open Mpt (Key Bytes Node Fault H256 Entry Fixed valueAt lookup)

/-! ## The state trie as a map of accounts -/

theorem stateGet_eq {t : Node} (ht : Fixed 64 t) (h : H256) :
    stateGet t h = match valueAt t (keyOfHash h) with
      | none => .ok none
      | some b => match decodeAcct b with
        | none => .error .badRlp
        | some a => .ok (some a) := by
  unfold stateGet
  rw [ht.get (C15_hash_key h h).1]
  cases valueAt t (keyOfHash h) <;> rfl

theorem valueAt_congr {t t' : Node} {k : Key} (h : lookup t' k = lookup t k) :
    valueAt t' k = valueAt t k := by
  unfold valueAt; rw [h]

theorem stateInsert_ok {t t' : Node} {h : H256} {a : Acct} (ht : Fixed 64 t)
    (hi : stateInsert t h a = .ok t') :
    Fixed 64 t' ∧ ∀ h', stateGet t' h' = if h' = h then .ok (some a) else stateGet t h' := by
  obtain ⟨f, hl⟩ := ht.insert (C15_hash_key h h).1 (ofTrie_ok.1 hi)
  refine ⟨f, fun h' => ?_⟩
  rw [stateGet_eq f]
  by_cases he : h' = h
  · subst he
    have : valueAt t' (keyOfHash h') = some (encodeAcct a) := by
      unfold valueAt; rw [hl, if_pos rfl]
    rw [this, if_pos rfl]
    simp [decode_encode]
  · have : valueAt t' (keyOfHash h') = valueAt t (keyOfHash h') :=
      valueAt_congr (by rw [hl, if_neg (fun e => he ((C15_hash_key h' h).2.2 e))])
    rw [this, ← stateGet_eq ht, if_neg he]

theorem stateRemove_ok {s : Mpt.Strategy} {t t' : Node} {h : H256} {r : Option Key} (ht : Fixed 64 t)
    (hi : Mpt.reportingRemove s t (keyOfHash h) = .ok (t', r)) :
    Fixed 64 t' ∧ ∀ h', stateGet t' h' = if h' = h then .ok none else stateGet t h' := by
  obtain ⟨v, hd⟩ := Mpt.reportingRemove_delete hi
  obtain ⟨f, -, hl⟩ := ht.delete (Nat.le_refl _) (C15_hash_key h h).1 hd
  refine ⟨f, fun h' => ?_⟩
  rw [stateGet_eq f]
  by_cases he : h' = h
  · subst he
    have : valueAt t' (keyOfHash h') = none := by unfold valueAt; rw [hl, if_pos rfl]
    rw [this, if_pos rfl]
  · have : valueAt t' (keyOfHash h') = valueAt t (keyOfHash h') :=
      valueAt_congr (by rw [hl, if_neg (fun e => he ((C15_hash_key h' h).2.2 e))])
    rw [this, ← stateGet_eq ht, if_neg he]

section
variable {keccak : Bytes → H256} {ss : Mpt.Strategy}

/-! ## Operations -/

theorem onAcct_ok {w w' : World1} {addr : Addr} {f : Acct → Except Err Acct} (hw : Fixed 64 w.state)
    (h : onAcct keccak w addr f = .ok w') :
    ∃ old a, stateGet w.state (keccak addr) = .ok old ∧ f (old.getD (Acct.default keccak)) = .ok a ∧
      w'.storage = w.storage ∧ Fixed 64 w'.state ∧
      ∀ h', stateGet w'.state h' = if h' = keccak addr then .ok (some a) else stateGet w.state h' := by
  unfold onAcct at h
  obtain ⟨old, h1, h⟩ := bind_ok.1 h
  obtain ⟨a, h2, h⟩ := bind_ok.1 h
  obtain ⟨st, h3, h⟩ := bind_ok.1 h
  cases h
  obtain ⟨f1, f2⟩ := stateInsert_ok hw h3
  exact ⟨old, a, h1, h2, rfl, f1, f2⟩

theorem onStorage_ok {α} {w w' : World1} {addr : Addr} {f : Node → Except Err (Node × α)} {r : α}
    (hw : Fixed 64 w.state) (h : onStorage keccak w addr f = .ok (w', r)) :
    ∃ a t t', stateGet w.state (keccak addr) = .ok (some a) ∧ w.storage (keccak addr) = some t ∧
      f t = .ok (t', r) ∧ w'.storage = setStorage w.storage (keccak addr) (some t') ∧
      Fixed 64 w'.state ∧
      ∀ h', stateGet w'.state h' = if h' = keccak addr
        then .ok (some { a with storageRoot := Mpt.rootHash keccak t' }) else stateGet w.state h' := by
  unfold onStorage at h
  obtain ⟨old, h1, h⟩ := bind_ok.1 h
  cases old with
  | none => cases h
  | some a =>
    dsimp only at h
    split at h
    · cases h
    · rename_i t ht
      obtain ⟨⟨t', r'⟩, h2, h⟩ := bind_ok.1 h
      obtain ⟨st, h3, h⟩ := bind_ok.1 h
      cases h
      obtain ⟨f1, f2⟩ := stateInsert_ok hw h3
      exact ⟨a, t, t', h1, ht, h2, rfl, f1, f2⟩

/-- The specification of C26: an account's storage root is the root of its storage trie. -/
def Linked (keccak : Bytes → H256) (w : World1) : Prop :=
  ∀ h a t, stateGet w.state h = .ok (some a) → w.storage h = some t →
    a.storageRoot = Mpt.rootHash keccak t

/-- Working invariant: linked, and all keys have 64 nibbles. -/
structure Good (keccak : Bytes → H256) (w : World1) : Prop where
  state : Fixed 64 w.state
  stor : ∀ h t, w.storage h = some t → Fixed 64 t
  linked : Linked keccak w

/-- An account that is created now would be linked. -/
def Ready (keccak : Bytes → H256) (w : World1) (h : H256) : Prop :=
  stateGet w.state h = .ok none → ∀ t, w.storage h = some t →
    Mpt.rootHash keccak t = Mpt.rootHash keccak .empty

theorem Ready.of_some {w : World1} {h : H256} {a : Acct} (hs : stateGet w.state h = .ok (some a)) :
    Ready keccak w h := by
  intro h0; rw [hs] at h0; cases h0

theorem Good.onAcct {w w' : World1} {addr : Addr} {f : Acct → Except Err Acct} (hg : Good keccak w)
    (hr : Ready keccak w (keccak addr))
    (hf : ∀ a a', f a = .ok a' → a'.storageRoot = a.storageRoot)
    (h : onAcct keccak w addr f = .ok w') : Good keccak w' ∧ Ready keccak w' (keccak addr) := by
  obtain ⟨old, a, h1, h2, h3, h4, h5⟩ := onAcct_ok hg.state h
  have hroot := hf _ _ h2
  refine ⟨⟨h4, by rw [h3]; exact hg.stor, ?_⟩, .of_some (a := a) (by rw [h5, if_pos rfl])⟩
  intro h' b t hb ht
  rw [h5] at hb
  rw [h3] at ht
  split at hb
  · rename_i he
    subst he
    cases hb
    rw [hroot]
    cases old with
    | none => exact (hr h1 t ht).symm
    | some o => exact hg.linked _ o t h1 ht
  · exact hg.linked h' b t hb ht

theorem Good.onStorage {α} {w w' : World1} {addr : Addr} {f : Node → Except Err (Node × α)} {r : α}
    (hg : Good keccak w) (hf : ∀ t t' r, Fixed 64 t → f t = .ok (t', r) → Fixed 64 t')
    (h : onStorage keccak w addr f = .ok (w', r)) : Good keccak w' ∧ Ready keccak w' (keccak addr) := by
  obtain ⟨a, t, t', h1, h2, h3, h4, h5, h6⟩ := onStorage_ok hg.state h
  refine ⟨⟨h5, ?_, ?_⟩, .of_some (a := { a with storageRoot := Mpt.rootHash keccak t' })
    (by rw [h6, if_pos rfl])⟩
  · intro h' x hx
    rw [h4] at hx
    unfold setStorage at hx
    split at hx
    · cases hx; exact hf t _ r (hg.stor _ t h2) h3
    · exact hg.stor h' x hx
  · intro h' b x hb hx
    rw [h6] at hb
    rw [h4] at hx
    unfold setStorage at hx
    split at hb
    · rename_i he
      subst he
      rw [if_pos rfl] at hx
      cases hb; cases hx; rfl
    · rename_i he
      rw [if_neg he] at hx
      exact hg.linked h' b x hb hx

theorem slot_len (slot : U256) : (keyOfSlot keccak slot.toNat).length = 64 :=
  (C15_hash_key _ ⟨List.replicate 32 0, rfl⟩).1

theorem storeInt_inv {w w' : World1} {addr : Addr} {slot v : U256}
    (h : (type1 keccak ss).storeInt w addr slot v = .ok w') :
    World.onStorage keccak w addr (fun t => do
      return (← ofTrie (Mpt.insert t (keyOfSlot keccak slot.toNat) (.val (encodeInt v))), ()))
        = .ok (w', ()) := by
  obtain ⟨⟨w1, u⟩, h1, h⟩ := bind_ok.1 h
  cases h
  exact h1

theorem Good.storeInt {w w' : World1} {addr : Addr} {slot v : U256} (hg : Good keccak w)
    (h : (type1 keccak ss).storeInt w addr slot v = .ok w') :
    Good keccak w' ∧ Ready keccak w' (keccak addr) := by
  refine hg.onStorage (fun t t' r ht hf => ?_) (storeInt_inv h)
  obtain ⟨t1, h1, hf⟩ := bind_ok.1 hf
  cases hf
  exact (ht.insert (slot_len slot) (ofTrie_ok.1 h1)).1

theorem Good.storeHash {w w' : World1} {addr : Addr} {slot v : H256} (hg : Good keccak w)
    (h : (type1 keccak ss).storeHash w addr slot v = .ok w') :
    Good keccak w' ∧ Ready keccak w' (keccak addr) := by
  obtain ⟨⟨w1, u⟩, h1, h⟩ := bind_ok.1 h
  cases h
  refine hg.onStorage (fun t t' r ht hf => ?_) h1
  obtain ⟨t1, h1, hf⟩ := bind_ok.1 hf
  cases hf
  exact (ht.insert (C15_hash_key slot slot).1 (ofTrie_ok.1 h1)).1

theorem Good.destroySlot {w w' : World1} {addr : Addr} {slot : U256} {r : Option Key}
    (hg : Good keccak w) (h : (type1 keccak ss).reportingDestroySlot w addr slot = .ok (w', r)) :
    Good keccak w' ∧ Ready keccak w' (keccak addr) := by
  refine hg.onStorage (fun t t' r ht hf => ?_) h
  obtain ⟨v, hd⟩ := Mpt.reportingRemove_delete (ofTrie_ok.1 hf)
  exact (ht.delete (Nat.le_refl _) (slot_len slot) hd).1

theorem Good.updateBalance {w w' : World1} {addr : Addr} {f : U256 → Except Err U256}
    (hg : Good keccak w) (hr : Ready keccak w (keccak addr))
    (h : (type1 keccak ss).updateBalance w addr f = .ok w') :
    Good keccak w' ∧ Ready keccak w' (keccak addr) := by
  refine hg.onAcct (f := fun a => do return { a with balance := ← f a.balance }) hr (fun a a' ha => ?_) h
  obtain ⟨x, -, ha⟩ := bind_ok.1 ha
  cases ha; rfl

theorem Good.updateNonce {w w' : World1} {addr : Addr} {f : U256 → Except Err U256}
    (hg : Good keccak w) (hr : Ready keccak w (keccak addr))
    (h : (type1 keccak ss).updateNonce w addr f = .ok w') :
    Good keccak w' ∧ Ready keccak w' (keccak addr) := by
  refine hg.onAcct (f := fun a => do return { a with nonce := ← f a.nonce }) hr (fun a a' ha => ?_) h
  obtain ⟨x, -, ha⟩ := bind_ok.1 ha
  cases ha; rfl

theorem Good.setCode {w w' : World1} {addr : Addr} {c : Bytes ⊕ H256}
    (hg : Good keccak w) (hr : Ready keccak w (keccak addr))
    (h : (type1 keccak ss).setCode w addr c = .ok w') :
    Good keccak w' ∧ Ready keccak w' (keccak addr) := by
  refine hg.onAcct (f := fun a => .ok { a with codeHash := codeHashOf keccak c }) hr (fun a a' ha => ?_) h
  cases ha; rfl

theorem Good.createStorage {w : World1} {addr : Addr} (hg : Good keccak w)
    (hn : stateGet w.state (keccak addr) = .ok none) {w' : World1}
    (h : (type1 keccak ss).createStorage w addr = .ok w') :
    Good keccak w' ∧ Ready keccak w' (keccak addr) := by
  cases h
  refine ⟨⟨hg.state, ?_, ?_⟩, ?_⟩
  · intro h' t ht
    dsimp only at ht
    unfold setStorage at ht
    split at ht
    · cases ht; exact Fixed.empty _
    · exact hg.stor h' t ht
  · intro h' a t ha ht
    dsimp only at ha ht
    unfold setStorage at ht
    split at ht
    · rename_i he
      rw [he, hn] at ha; cases ha
    · exact hg.linked h' a t ha ht
  · intro _ t ht
    dsimp only at ht
    unfold setStorage at ht
    rw [if_pos rfl] at ht
    cases ht; rfl

theorem Good.destroyStorage {w w' : World1} {addr : Addr} (hg : Good keccak w)
    (h : (type1 keccak ss).destroyStorage w addr = .ok w') :
    Good keccak w' ∧ w'.state = w.state ∧
      w'.storage = setStorage w.storage (keccak addr) none := by
  unfold type1 at h
  dsimp only at h
  split at h
  · cases h
  · cases h
    refine ⟨⟨hg.state, ?_, ?_⟩, rfl, rfl⟩
    · intro h' t ht
      dsimp only at ht
      unfold setStorage at ht
      split at ht
      · cases ht
      · exact hg.stor h' t ht
    · intro h' a t ha ht
      dsimp only at ha ht
      unfold setStorage at ht
      split at ht
      · cases ht
      · exact hg.linked h' a t ha ht

theorem reportingDestroy_ok {w w' : World1} {addr : Addr} {r : Option Key} (hw : Fixed 64 w.state)
    (h : (type1 keccak ss).reportingDestroy w addr = .ok (w', r)) :
    w'.storage = w.storage ∧ Fixed 64 w'.state ∧
      ∀ h', stateGet w'.state h' = if h' = keccak addr then .ok none else stateGet w.state h' := by
  obtain ⟨⟨t, r'⟩, h1, h⟩ := bind_ok.1 h
  cases h
  obtain ⟨f1, f2⟩ := stateRemove_ok hw (ofTrie_ok.1 h1)
  exact ⟨rfl, f1, f2⟩

theorem Good.reportingDestroy {w w' : World1} {addr : Addr} {r : Option Key} (hg : Good keccak w)
    (h : (type1 keccak ss).reportingDestroy w addr = .ok (w', r)) : Good keccak w' := by
  obtain ⟨h1, h2, h3⟩ := reportingDestroy_ok hg.state h
  refine ⟨h2, by rw [h1]; exact hg.stor, ?_⟩
  intro h' a t ha ht
  rw [h3] at ha
  rw [h1] at ht
  split at ha
  · cases ha
  · exact hg.linked h' a t ha ht

/-! ## Masking -/

theorem createSubset_mask {t t' : Node} {ks : List Key} (h : Mpt.createSubset keccak t ks = .ok t') :
    Mpt.Mask keccak (fun _ => True) t' t := by
  rw [Mpt.createSubset_eq h]
  exact Mpt.prune_mask _ _ _ _

theorem maskLoop_roots {s s' : H256 → Option Node} {ms : List (Addr × List Key)}
    (h : maskLoop keccak s ms = .ok s') (a : H256) (t' : Node) (ht : s' a = some t') :
    ∃ t, s a = some t ∧ Mpt.rootHash keccak t' = Mpt.rootHash keccak t := by
  induction ms generalizing s with
  | nil => cases h; exact ⟨t', ht, rfl⟩
  | cons m ms ih =>
    obtain ⟨ad, ks⟩ := m
    unfold maskLoop at h
    split at h
    · exact ih h
    · rename_i t hs
      split at h
      · rename_i t1 h1
        obtain ⟨t2, e1, e2⟩ := ih h
        unfold setStorage at e1
        split at e1
        · rename_i he
          cases e1
          refine ⟨t, by rw [he]; exact hs, ?_⟩
          rw [e2]
          exact (createSubset_mask (ofSubset_ok.1 h1)).rootHash
        · exact ⟨t2, e1, e2⟩
      · cases h

theorem mask_get {w w' : World1} {ps : List Key} (h : (type1 keccak ss).mask w ps = .ok w') :
    w'.storage = w.storage ∧ Mpt.rootHash keccak w'.state = Mpt.rootHash keccak w.state ∧
      ∀ h' a, stateGet w'.state h' = .ok (some a) → stateGet w.state h' = .ok (some a) := by
  obtain ⟨t, h1, h⟩ := bind_ok.1 h
  cases h
  have hm := createSubset_mask (ofSubset_ok.1 h1)
  refine ⟨rfl, hm.rootHash, fun h' a ha => ?_⟩
  dsimp only at ha
  rcases hm.get (keyOfHash h') with ⟨-, e⟩ | e
  · unfold stateGet at ha
    rw [e] at ha
    cases ha
  · unfold stateGet at ha ⊢
    rw [← e]
    exact ha

theorem Linked.mask {w w1 w' : World1} {ps : List Key} {ms : List (Addr × List Key)}
    (hl : Linked keccak w) (h : (type1 keccak ss).mask w ps = .ok w1)
    (h2 : (type1 keccak ss).maskStorage w1 ms = .ok w') : Linked keccak w' := by
  obtain ⟨e1, -, e2⟩ := mask_get h
  obtain ⟨s, h3, h2⟩ := bind_ok.1 h2
  cases h2
  intro h' a t ha ht
  obtain ⟨t0, ht0, hr⟩ := maskLoop_roots h3 h' t ht
  rw [hr]
  split at ht0
  · rw [e1] at ht0
    exact hl h' a t0 (e2 h' a ha) ht0
  · cases ht0

theorem mask_root {w w1 w' : World1} {ps : List Key} {ms : List (Addr × List Key)}
    (h : (type1 keccak ss).mask w ps = .ok w1) (h2 : (type1 keccak ss).maskStorage w1 ms = .ok w') :
    (type1 keccak ss).root w' = (type1 keccak ss).root w := by
  obtain ⟨-, e1, -⟩ := mask_get h
  obtain ⟨s, h3, h2⟩ := bind_ok.1 h2
  cases h2
  exact e1

/-! ## Construction -/

theorem newLoop_keep {s s' : H256 → Option Node} {l : List (Key × Entry)}
    (h : newLoop keccak s l = .ok s') (a : H256) (t : Node) (ht : s a = some t) : s' a = some t := by
  induction l generalizing s with
  | nil => cases h; exact ht
  | cons x l ih =>
    obtain ⟨k, e⟩ := x
    cases e with
    | hash y => exact ih (by simpa [newLoop] using h) ht
    | val v =>
      unfold newLoop at h
      split at h
      · rename_i h0 a0 _ _
        dsimp only at h
        split at h
        · refine ih h ?_
          unfold setStorage
          split
          · rename_i he
            subst he
            rw [ht]; rfl
          · exact ht
        · cases h
      · cases h

theorem newLoop_linked {s s' : H256 → Option Node} {l : List (Key × Entry)}
    (h : newLoop keccak s l = .ok s') (k : Key) (v : Bytes) (hk : (k, .val v) ∈ l) (h0 : H256) (a : Acct)
    (hh : (intoHash k).bind decodeH256 = some h0) (ha : decodeAcct v = some a) :
    ∃ t, s' h0 = some t ∧ a.storageRoot = Mpt.rootHash keccak t := by
  induction l generalizing s with
  | nil => simp at hk
  | cons x l ih =>
    rcases List.mem_cons.1 hk with rfl | hk'
    · unfold newLoop at h
      rw [hh, ha] at h
      dsimp only at h
      split at h
      · rename_i he
        refine ⟨_, newLoop_keep h h0 ((s h0).getD (.hash a.storageRoot)) ?_, he.symm⟩
        unfold setStorage
        rw [if_pos rfl]
      · cases h
    · obtain ⟨k', e⟩ := x
      cases e with
      | hash y => exact ih (by simpa [newLoop] using h) hk'
      | val v' =>
        unfold newLoop at h
        split at h
        · dsimp only at h
          split at h
          · exact ih h hk'
          · cases h
        · cases h

theorem Fixed.hashNode (m : Nat) (h : H256) : Fixed m (.hash h) := by
  refine ⟨trivial, fun k v hk => ?_, fun k x hk => ?_⟩
  · simp only [lookup] at hk
    split at hk <;> cases hk
  · simp only [lookup] at hk
    split at hk
    · rename_i he; rw [he]; simp
    · cases hk

theorem newLoop_fixed {s s' : H256 → Option Node} {l : List (Key × Entry)}
    (h : newLoop keccak s l = .ok s') (hs : ∀ a t, s a = some t → Fixed 64 t) :
    ∀ a t, s' a = some t → Fixed 64 t := by
  induction l generalizing s with
  | nil => cases h; exact hs
  | cons x l ih =>
    obtain ⟨k, e⟩ := x
    cases e with
    | hash y => exact ih (by simpa [newLoop] using h) hs
    | val v =>
      unfold newLoop at h
      split at h
      · rename_i h0 a0 _ _
        dsimp only at h
        split at h
        · refine ih h fun a t ht => ?_
          unfold setStorage at ht
          split at ht
          · cases ht
            cases hx : s h0 with
            | none => exact Fixed.hashNode _ _
            | some y => exact hs h0 y hx
          · exact hs a t ht
        · cases h
      · cases h

/-- What the iterator of the state trie yields. -/
def ItemsOf (t : Node) (items : List (Key × Entry)) : Prop :=
  ∃ N, ∀ fuel, N ≤ fuel → Mpt.collect fuel (Mpt.itemsInit t) = some (.ok items)

theorem itemsOf_entries {t : Node} {items : List (Key × Entry)} (ht : Fixed 64 t)
    (hi : ItemsOf t items) : items = Mpt.entries t [] := by
  obtain ⟨N, hN⟩ := hi
  obtain ⟨M, hM⟩ := Mpt.collect_items (Mpt.WF.extOk ht.wf) (Mpt.WF.fits ht.wf ht.bounded)
  have h1 := hN (max N M) (Nat.le_max_left _ _)
  rw [hM (max N M) (Nat.le_max_right _ _)] at h1
  simpa using h1.symm

/-- A new world is linked. -/
theorem new1_good {state : Node} {items : List (Key × Entry)} {storage : H256 → Option Node}
    {w : World1} (hs : Fixed 64 state) (ht : ∀ h t, storage h = some t → Fixed 64 t)
    (hi : ItemsOf state items) (h : new1 keccak state items storage = .ok w) : Good keccak w := by
  obtain ⟨s, h1, h⟩ := bind_ok.1 h
  cases h
  refine ⟨hs, newLoop_fixed h1 ht, fun h' a t ha hst => ?_⟩
  dsimp only at ha hst
  rw [stateGet_eq hs] at ha
  split at ha
  · cases ha
  · rename_i b hb
    split at ha
    · cases ha
    · rename_i a' hd
      cases ha
      have hl : lookup state (keyOfHash h') = some (.val b) := by
        unfold valueAt at hb
        split at hb
        · rename_i v hv; cases hb; exact hv
        · cases hb
      have hm : (keyOfHash h', Entry.val b) ∈ items := by
        rw [itemsOf_entries hs hi]
        exact Mpt.mem_entries.2 ⟨_, by simp, hl⟩
      obtain ⟨t', e1, e2⟩ := newLoop_linked h1 _ _ hm h' a (by
        rw [(C15_hash_key h' h').2.1]; exact decodeH256_bytes h') hd
      rw [hst] at e1
      cases e1
      exact e2

end
end Verif.World
