import Verif.Decoder.Linked
/-!
# C54: effect of traces and withdrawals on accounts and slots; C53: effect of the pre-execution hooks

For worlds made of tries (`Type1World`).  The specification speaks about accounts (`stateGet`) and
values of storage slots (`slotVal`) only.
-/
namespace Verif.Decoder
open Mpt (Key Bytes Node H256 Entry Fixed valueAt lookup)
open World

/-- Encoded value of a slot of an account; the slot is named by its trie key. -/
def slotVal (w : World1) (h : H256) (k : Key) : Option Bytes := (w.storage h).bind (valueAt · k)

/-- What a slot holds once a number is written to it: nothing for zero, else the RLP integer. -/
def slotEnc (v : U256) : Option Bytes := if v = 0 then none else some (encodeInt v)

/-- The trie key of a slot given as 32 bytes. -/
def slotKey (keccak : Bytes → H256) (s : H256) : Key := keyOfHash (keccak s.bytes)

/-- The last write to a trie key in a list of slot writes. -/
def lastWrite (keccak : Bytes → H256) (l : List (H256 × U256)) (k : Key) : Option U256 :=
  ((l.reverse.find? (fun x => slotKey keccak x.1 = k)).map (·.2))

theorem slotBytes_uint (s : H256) : slotBytes (uint s).toNat = s.bytes := by
  have hlt : Rlp.beVal s.bytes < 2 ^ 256 := by
    have := beVal_lt s.bytes
    rw [s.len] at this
    rw [show (256 : Nat) ^ 32 = 2 ^ 256 by decide] at this
    exact this
  have hv : (uint s).toNat = Rlp.beVal s.bytes := by
    unfold uint; rw [BitVec.toNat_ofNat, Nat.mod_eq_of_lt hlt]
  rw [hv]
  have h1 := slotBytes_len hlt
  have h2 := slotBytes_val (Rlp.beVal s.bytes)
  have key : ∀ (a b : Bytes), a.length = b.length → Rlp.beVal a = Rlp.beVal b → a = b := by
    intro a
    induction a with
    | nil => intro b hb _; exact (List.length_eq_zero_iff.1 hb.symm).symm
    | cons x a ih =>
      intro b hb hv
      cases b with
      | nil => simp at hb
      | cons y b =>
        simp only [List.length_cons, Nat.add_right_cancel_iff] at hb
        rw [← List.singleton_append, Rlp.beVal_append, ← List.singleton_append (l := b),
          Rlp.beVal_append, hb] at hv
        have ha := beVal_lt a
        have hbv := beVal_lt b
        rw [hb] at ha
        have e1 : Rlp.beVal [x] = x.toNat := by simp [Rlp.beVal]
        have e2 : Rlp.beVal [y] = y.toNat := by simp [Rlp.beVal]
        rw [e1, e2] at hv
        have hp : 0 < 256 ^ b.length := Nat.pow_pos (by decide)
        have q1 : (x.toNat * 256 ^ b.length + Rlp.beVal a) / 256 ^ b.length = x.toNat := by
          rw [Nat.mul_comm, Nat.mul_add_div hp, Nat.div_eq_of_lt ha]; simp
        have q2 : (y.toNat * 256 ^ b.length + Rlp.beVal b) / 256 ^ b.length = y.toNat := by
          rw [Nat.mul_comm, Nat.mul_add_div hp, Nat.div_eq_of_lt hbv]; simp
        have hxy : x.toNat = y.toNat := by rw [← q1, hv, q2]
        rw [hxy] at hv
        rw [UInt8.toNat.inj hxy, ih b hb (by omega)]
  exact key _ _ (by rw [h1, s.len]) h2

theorem keyOfSlot_uint (keccak : Bytes → H256) (s : H256) :
    keyOfSlot keccak (uint s).toNat = slotKey keccak s := by
  unfold keyOfSlot slotKey; rw [slotBytes_uint]

theorem lastWrite_nil (keccak : Bytes → H256) (k : Key) : lastWrite keccak [] k = none := rfl

theorem lastWrite_cons (keccak : Bytes → H256) (x : H256) (v : U256) (l : List (H256 × U256)) (k : Key) :
    lastWrite keccak ((x, v) :: l) k = match lastWrite keccak l k with
      | some u => some u
      | none => if slotKey keccak x = k then some v else none := by
  unfold lastWrite
  rw [List.reverse_cons, List.find?_append]
  cases h : l.reverse.find? (fun x => slotKey keccak x.1 = k) with
  | some y => simp
  | none => by_cases he : slotKey keccak x = k <;> simp [he]

/-- Everything but the account at `h` is as before. -/
def Frame (h : H256) (w w' : World1) : Prop :=
  ∀ x, x ≠ h → stateGet w'.state x = stateGet w.state x ∧ w'.storage x = w.storage x

theorem Frame.refl (h : H256) (w : World1) : Frame h w w := fun _ _ => ⟨rfl, rfl⟩

theorem Frame.trans {h : H256} {w w1 w2 : World1} (a : Frame h w w1) (b : Frame h w1 w2) : Frame h w w2 :=
  fun x hx => ⟨(b x hx).1.trans (a x hx).1, (b x hx).2.trans (a x hx).2⟩

/-! ## Specification of a trace -/

/-- Hash of the code an account has after a trace. -/
def CodeUsage.hash (keccak : Bytes → H256) : CodeUsage → H256
  | .read h => h
  | .write c => keccak c

/-- The account after a trace: the fields the trace sets; an account that is touched for the first time
starts from the empty account. -/
def Trace.account (keccak : Bytes → H256) (t : Trace) (o : Option Acct) : Option Acct :=
  if t.balance = none ∧ t.nonce = none ∧ t.codeUsage = none then o
  else
    let a := o.getD (Acct.default keccak)
    some { a with
      balance := t.balance.getD a.balance
      nonce := t.nonce.getD a.nonce
      codeHash := (t.codeUsage.map (·.hash keccak)).getD a.codeHash }

section
variable {env : Env} {ss : Mpt.Strategy}

theorem onAcct_sem {keccak : Bytes → H256} {w w' : World1} {a : Addr} {f : Acct → Except Err Acct}
    (hg : Good keccak w) {o : Option Acct} (ho : stateGet w.state (keccak a) = .ok o)
    (h : onAcct keccak w a f = .ok w') : ∃ b, f (o.getD (Acct.default keccak)) = .ok b ∧
      stateGet w'.state (keccak a) = .ok (some b) ∧ w'.storage = w.storage ∧
      Frame (keccak a) w w' := by
  obtain ⟨old, b, h1, h2, h3, h4, h5⟩ := onAcct_ok hg.state h
  rw [ho] at h1
  cases h1
  exact ⟨b, h2, by rw [h5, if_pos rfl], h3, fun x hx => ⟨by rw [h5, if_neg hx], by rw [h3]⟩⟩

theorem setBalance_sem {a : Addr} {w w' : World1} {v : Option U256} (hg : Good env.keccak w)
    {o : Option Acct} (ho : stateGet w.state (env.keccak a) = .ok o)
    (h : setBalance (type1 env.keccak ss) a w v = .ok w') :
    stateGet w'.state (env.keccak a) = .ok (Trace.account env.keccak { balance := v } o) ∧
      w'.storage = w.storage ∧ Frame (env.keccak a) w w' := by
  cases v with
  | none => cases h; exact ⟨by simpa [Trace.account] using ho, rfl, .refl _ _⟩
  | some v =>
    obtain ⟨b, h1, h2, h3, h4⟩ :=
      onAcct_sem (f := fun a => do return { a with balance := ← .ok v }) hg ho h
    cases h1
    exact ⟨by rw [h2]; simp [Trace.account], h3, h4⟩

theorem setNonce_sem {a : Addr} {w w' : World1} {v : Option U256} (hg : Good env.keccak w)
    {o : Option Acct} (ho : stateGet w.state (env.keccak a) = .ok o)
    (h : setNonce (type1 env.keccak ss) a w v = .ok w') :
    stateGet w'.state (env.keccak a) = .ok (Trace.account env.keccak { nonce := v } o) ∧
      w'.storage = w.storage ∧ Frame (env.keccak a) w w' := by
  cases v with
  | none => cases h; exact ⟨by simpa [Trace.account] using ho, rfl, .refl _ _⟩
  | some v =>
    obtain ⟨b, h1, h2, h3, h4⟩ :=
      onAcct_sem (f := fun a => do return { a with nonce := ← .ok v }) hg ho h
    cases h1
    exact ⟨by rw [h2]; simp [Trace.account], h3, h4⟩

theorem setCode_sem {a : Addr} {w w' : World1} {c : Bytes ⊕ H256} (hg : Good env.keccak w)
    {o : Option Acct} (ho : stateGet w.state (env.keccak a) = .ok o)
    (h : (type1 env.keccak ss).setCode w a c = .ok w') (u : CodeUsage)
    (hu : codeHashOf env.keccak c = u.hash env.keccak) :
    stateGet w'.state (env.keccak a) = .ok (Trace.account env.keccak { codeUsage := some u } o) ∧
      w'.storage = w.storage ∧ Frame (env.keccak a) w w' := by
  obtain ⟨b, h1, h2, h3, h4⟩ :=
    onAcct_sem (f := fun a => .ok { a with codeHash := codeHashOf env.keccak c }) hg ho h
  cases h1
  exact ⟨by rw [h2]; simp [Trace.account, hu], h3, h4⟩

theorem useCode_sem {a : Addr} {w w' : World1} {code code' : Hash2Code} {cc cc' : List Bytes}
    {u : Option CodeUsage} (hg : Good env.keccak w) (hk : Keyed env.keccak code)
    {o : Option Acct} (ho : stateGet w.state (env.keccak a) = .ok o)
    (h : useCode (type1 env.keccak ss) env a w code cc u = .ok (w', code', cc')) :
    stateGet w'.state (env.keccak a) = .ok (Trace.account env.keccak { codeUsage := u } o) ∧
      w'.storage = w.storage ∧ Frame (env.keccak a) w w' ∧ Keyed env.keccak code' := by
  match u with
  | none => cases h; exact ⟨by simpa [Trace.account] using ho, rfl, .refl _ _, hk⟩
  | some (.read x) =>
    unfold useCode at h
    dsimp only at h
    split at h
    · split at h
      · cases h
      · obtain ⟨y, h1, h⟩ := bind_ok.1 h
        cases h
        obtain ⟨e1, e2, e3⟩ := setCode_sem hg ho h1 (.read x) rfl
        exact ⟨e1, e2, e3, hk⟩
    · rename_i b hb
      obtain ⟨y, h1, h⟩ := bind_ok.1 h
      cases h
      obtain ⟨e1, e2, e3⟩ := setCode_sem hg ho h1 (.read x) (hk x b hb)
      exact ⟨e1, e2, e3, hk⟩
  | some (.write x) =>
    unfold useCode at h
    dsimp only at h
    obtain ⟨y, h1, h⟩ := bind_ok.1 h
    cases h
    obtain ⟨e1, e2, e3⟩ := setCode_sem hg ho h1 (.write x) rfl
    exact ⟨e1, e2, e3, hk.insert x⟩

/-- Effect of writing one slot (`f` inserts or deletes at `k`). -/
theorem onStorage_sem {α} {keccak : Bytes → H256} {w w' : World1} {a : Addr}
    {f : Node → Except Err (Node × α)} {r : α} {k : Key} {v : Option Bytes} (hg : Good keccak w)
    (hf : ∀ t t' r, Fixed 64 t → f t = .ok (t', r) →
      ∀ k', lookup t' k' = if k' = k then v.map Entry.val else lookup t k')
    (h : onStorage keccak w a f = .ok (w', r)) :
    (∃ b s, stateGet w.state (keccak a) = .ok (some b) ∧
      stateGet w'.state (keccak a) = .ok (some { b with storageRoot := s })) ∧
      Frame (keccak a) w w' ∧
      ∀ k', slotVal w' (keccak a) k' = if k' = k then v else slotVal w (keccak a) k' := by
  obtain ⟨b, t, t', h1, h2, h3, h4, h5, h6⟩ := onStorage_ok hg.state h
  have hl := hf t t' r (hg.stor _ _ h2) h3
  refine ⟨⟨b, _, h1, by rw [h6, if_pos rfl]⟩,
    fun x hx => ⟨by rw [h6, if_neg hx], by rw [h4, setStorage, if_neg hx]⟩, fun k' => ?_⟩
  unfold slotVal
  rw [h4, h2]
  simp only [setStorage, if_pos, Option.bind_some, valueAt]
  rw [hl]
  by_cases he : k' = k
  · rw [if_pos he, if_pos he]
    cases v <;> rfl
  · rw [if_neg he, if_neg he]

theorem storeInt_sem {w w' : World1} {a : Addr} {s v : U256} (hg : Good env.keccak w)
    (h : (type1 env.keccak ss).storeInt w a s v = .ok w') :
    (∃ b r, stateGet w.state (env.keccak a) = .ok (some b) ∧
      stateGet w'.state (env.keccak a) = .ok (some { b with storageRoot := r })) ∧
      Frame (env.keccak a) w w' ∧
      ∀ k', slotVal w' (env.keccak a) k' = if k' = keyOfSlot env.keccak s.toNat
        then some (encodeInt v) else slotVal w (env.keccak a) k' := by
  refine onStorage_sem (v := some (encodeInt v)) hg (fun t t' r ht hf k' => ?_) (storeInt_inv h)
  obtain ⟨t1, h1, hf⟩ := bind_ok.1 hf
  cases hf
  exact (ht.insert (slot_len s) (ofTrie_ok.1 h1)).2 k'

theorem destroySlot_sem {w w' : World1} {a : Addr} {s : U256} {r : Option Key}
    (hg : Good env.keccak w)
    (h : (type1 env.keccak ss).reportingDestroySlot w a s = .ok (w', r)) :
    (∃ b r, stateGet w.state (env.keccak a) = .ok (some b) ∧
      stateGet w'.state (env.keccak a) = .ok (some { b with storageRoot := r })) ∧
      Frame (env.keccak a) w w' ∧
      ∀ k', slotVal w' (env.keccak a) k' = if k' = keyOfSlot env.keccak s.toNat
        then none else slotVal w (env.keccak a) k' := by
  refine onStorage_sem (v := none) hg (fun t t' r ht hf k' => ?_) h
  obtain ⟨v, hd⟩ := Mpt.reportingRemove_delete (ofTrie_ok.1 hf)
  exact (ht.delete (Nat.le_refl _) (slot_len s) hd).2.2 k'

theorem storeHash_sem {w w' : World1} {a : Addr} {s v : H256} (hg : Good env.keccak w)
    (h : (type1 env.keccak ss).storeHash w a s v = .ok w') :
    (∃ b r, stateGet w.state (env.keccak a) = .ok (some b) ∧
      stateGet w'.state (env.keccak a) = .ok (some { b with storageRoot := r })) ∧
      Frame (env.keccak a) w w' ∧
      ∀ k', slotVal w' (env.keccak a) k' = if k' = keyOfHash s
        then some (Rlp.str v.bytes) else slotVal w (env.keccak a) k' := by
  obtain ⟨⟨w1, u⟩, h1, h⟩ := bind_ok.1 h
  cases h
  refine onStorage_sem (v := some (Rlp.str v.bytes)) hg (fun t t' r ht hf k' => ?_) h1
  obtain ⟨t1, h1, hf⟩ := bind_ok.1 hf
  cases hf
  exact (ht.insert (C15_hash_key s s).1 (ofTrie_ok.1 h1)).2 k'

theorem writeSlots_sem {a : Addr} {l : List (H256 × U256)} {w w' : World1} {ks : List Key}
    (hg : Good env.keccak w) {o : Option Acct} (ho : stateGet w.state (env.keccak a) = .ok o)
    (h : writeSlots (type1 env.keccak ss) a w l = .ok (w', ks)) :
    (∃ r, stateGet w'.state (env.keccak a) = .ok (o.map (fun b => { b with storageRoot := r }))) ∧
      Frame (env.keccak a) w w' ∧
      ∀ k, slotVal w' (env.keccak a) k = match lastWrite env.keccak l k with
        | some v => slotEnc v
        | none => slotVal w (env.keccak a) k := by
  induction l generalizing w ks o with
  | nil =>
    cases h
    refine ⟨?_, .refl _ _, fun k => rfl⟩
    cases o with
    | none => exact ⟨Mpt.rootHash env.keccak .empty, ho⟩
    | some b => exact ⟨b.storageRoot, ho⟩
  | cons x l ih =>
    obtain ⟨s, v⟩ := x
    have step : ∃ w1 ks1, Good env.keccak w1 ∧ writeSlots (type1 env.keccak ss) a w1 l = .ok (w', ks1) ∧
        (∃ b r, stateGet w.state (env.keccak a) = .ok (some b) ∧
          stateGet w1.state (env.keccak a) = .ok (some { b with storageRoot := r })) ∧
        Frame (env.keccak a) w w1 ∧ ∀ k', slotVal w1 (env.keccak a) k' =
          if k' = keyOfSlot env.keccak (uint s).toNat then slotEnc v else slotVal w (env.keccak a) k' := by
      unfold writeSlots at h
      split at h
      · rename_i hv
        obtain ⟨⟨w1, r⟩, h1, h⟩ := bind_ok.1 h
        obtain ⟨⟨w2, rs⟩, h2, h⟩ := bind_ok.1 h
        cases h
        have e : slotEnc v = none := by rw [slotEnc, if_pos hv]
        rw [e]
        exact ⟨w1, rs, (hg.destroySlot h1).1, h2, destroySlot_sem hg h1⟩
      · rename_i hv
        obtain ⟨w1, h1, h⟩ := bind_ok.1 h
        have e : slotEnc v = some (encodeInt v) := by rw [slotEnc, if_neg hv]
        rw [e]
        exact ⟨w1, ks, (hg.storeInt h1).1, h, storeInt_sem hg h1⟩
    obtain ⟨w1, ks1, g1, h1, ⟨b, r, hb, hb1⟩, f1, s1⟩ := step
    rw [ho] at hb
    cases hb
    obtain ⟨⟨r2, i1⟩, i2, i3⟩ := ih g1 hb1 h1
    refine ⟨⟨r2, i1⟩, f1.trans i2, fun k => ?_⟩
    rw [i3, lastWrite_cons]
    cases lastWrite env.keccak l k with
    | some u => rfl
    | none =>
      dsimp only
      rw [s1, keyOfSlot_uint]
      by_cases he : slotKey env.keccak s = k
      · rw [if_pos he.symm, if_pos he]
      · rw [if_neg (fun e => he e.symm), if_neg he]

theorem account_compose (keccak : Bytes → H256) (t : Trace) (o : Option Acct) :
    Trace.account keccak { codeUsage := t.codeUsage } (Trace.account keccak { nonce := t.nonce }
      (Trace.account keccak { balance := t.balance } o)) = t.account keccak o := by
  unfold Trace.account
  cases t.balance <;> cases t.nonce <;> cases t.codeUsage <;> simp

theorem doWrites_sem {a : Addr} {t : Trace} {w w' : World1} {code code' : Hash2Code}
    {cc cc' : List Bytes} {ks : List Key} (hg : Good env.keccak w)
    (hr : Ready env.keccak w (env.keccak a)) (hk : Keyed env.keccak code)
    {o : Option Acct} (ho : stateGet w.state (env.keccak a) = .ok o)
    (h : doWrites (type1 env.keccak ss) env a t w code cc = .ok (w', code', cc', ks)) :
    (∃ r, stateGet w'.state (env.keccak a) =
        .ok ((t.account env.keccak o).map (fun b => { b with storageRoot := r }))) ∧
      Frame (env.keccak a) w w' ∧
      (∀ k, slotVal w' (env.keccak a) k = match lastWrite env.keccak t.storageWritten k with
        | some v => slotEnc v
        | none => slotVal w (env.keccak a) k) ∧ Keyed env.keccak code' := by
  unfold doWrites at h
  obtain ⟨w1, h1, h⟩ := bind_ok.1 h
  obtain ⟨w2, h2, h⟩ := bind_ok.1 h
  obtain ⟨⟨w3, c, cc1⟩, h3, h⟩ := bind_ok.1 h
  obtain ⟨⟨w4, ks1⟩, h4, h⟩ := bind_ok.1 h
  cases h
  have e1 : Good env.keccak w1 ∧ Ready env.keccak w1 (env.keccak a) := by
    unfold setBalance at h1
    split at h1
    · cases h1; exact ⟨hg, hr⟩
    · exact hg.updateBalance hr h1
  have e2 : Good env.keccak w2 ∧ Ready env.keccak w2 (env.keccak a) := by
    unfold setNonce at h2
    split at h2
    · cases h2; exact e1
    · exact e1.1.updateNonce e1.2 h2
  have e3 := useCode_good e2.1 e2.2 h3
  obtain ⟨a1, b1, f1⟩ := setBalance_sem hg ho h1
  obtain ⟨a2, b2, f2⟩ := setNonce_sem e1.1 a1 h2
  obtain ⟨a3, b3, f3, k3⟩ := useCode_sem e2.1 hk a2 h3
  rw [account_compose] at a3
  obtain ⟨a4, f4, s4⟩ := writeSlots_sem e3.1 a3 h4
  refine ⟨a4, ((f1.trans f2).trans f3).trans f4, fun k => ?_, k3⟩
  rw [s4]
  have : slotVal w3 (env.keccak a) k = slotVal w (env.keccak a) k := by
    unfold slotVal; rw [b3, b2, b1]
  rw [this]

/-- **C54**, one trace. For every world whose tries are linked and every trace, a successful
application of the trace to the account at `addr`
* changes nothing about any other account;
* after a self-destruct leaves neither account nor storage;
* else, if the transaction succeeded or the account existed, leaves exactly the account with the
  fields set by the trace, and each slot holds its last write, or what it held before (nothing, if the
  account did not exist);
* else leaves no account;
and the tries stay linked. -/
theorem C54_trace {rc : Bytes} {addr : Addr} {t : Trace} {st st' : World1 × Hash2Code}
    {loc loc' : Loc Key} (hg : Good env.keccak st.1) (hk : Keyed env.keccak st.2)
    (h : applyTrace (type1 env.keccak ss) env rc addr t st loc = .ok (st', loc')) :
    let hsh := env.keccak addr
    Good env.keccak st'.1 ∧ Keyed env.keccak st'.2 ∧ Frame hsh st.1 st'.1 ∧
    ∃ status old, (env.mapReceipt rc >>= env.status) = .ok status ∧ stateGet st.1.state hsh = .ok old ∧
      if t.selfDestructed then stateGet st'.1.state hsh = .ok none ∧ st'.1.storage hsh = none
      else if status ∨ old ≠ none then
        (∃ r, stateGet st'.1.state hsh =
          .ok ((t.account env.keccak old).map (fun b => { b with storageRoot := r }))) ∧
        ∀ k, slotVal st'.1 hsh k = match lastWrite env.keccak t.storageWritten k with
          | some v => slotEnc v
          | none => if old = none then none else slotVal st.1 hsh k
      else stateGet st'.1.state hsh = .ok none := by
  intro hsh
  have hgood := applyTrace_good hg h
  unfold applyTrace at h
  obtain ⟨m, hm, h⟩ := bind_ok.1 h
  obtain ⟨status, hs, h⟩ := bind_ok.1 h
  obtain ⟨⟨w, born⟩, h1, h⟩ := bind_ok.1 h
  obtain ⟨⟨w1, code, cc, ks⟩, h2, h⟩ := bind_ok.1 h
  obtain ⟨⟨w2, p⟩, h3, h⟩ := bind_ok.1 h
  cases h
  obtain ⟨g1, r1⟩ := bear_good hg h1
  -- the account before
  have hb : ∃ old, stateGet st.1.state hsh = .ok old ∧ (born = true ↔ old = none) ∧
      stateGet w.state hsh = .ok old ∧ Frame hsh st.1 w ∧
      ∀ k, slotVal w hsh k = if old = none then none else slotVal st.1 hsh k := by
    unfold bear at h1
    obtain ⟨c, hc, h1⟩ := bind_ok.1 h1
    obtain ⟨old, hold, hc⟩ := bind_ok.1 hc
    cases old with
    | none =>
      cases hc
      obtain ⟨x, h4, h1⟩ := bind_ok.1 h1
      cases h1
      cases h4
      refine ⟨none, hold, by simp, hold, fun x hx => ⟨rfl, if_neg hx⟩, fun k => ?_⟩
      have hx : (hsh = env.keccak addr) = True := by simp [hsh]
      simp [slotVal, setStorage, hx, valueAt]
    | some o =>
      cases hc
      cases h1
      exact ⟨some o, hold, by simp, hold, .refl _ _, fun k => by simp⟩
  obtain ⟨old, o1, o2, o3, o4, o5⟩ := hb
  -- the writes
  have hw : ∃ _ : Keyed env.keccak code, Frame hsh w w1 ∧ Good env.keccak w1 ∧
      (status = true ∨ old ≠ none → (∃ r, stateGet w1.state hsh =
          .ok ((t.account env.keccak old).map (fun b => { b with storageRoot := r }))) ∧
        ∀ k, slotVal w1 hsh k = match lastWrite env.keccak t.storageWritten k with
          | some v => slotEnc v
          | none => slotVal w hsh k) ∧
      (¬ (status = true ∨ old ≠ none) → stateGet w1.state hsh = .ok none) := by
    unfold writePhase at h2
    split at h2
    · rename_i hw
      obtain ⟨d1, d2, d3, d4⟩ := doWrites_sem g1 r1 hk o3 h2
      refine ⟨d4, d2, (doWrites_good g1 r1 h2).1, fun _ => ⟨d1, d3⟩, fun hn => ?_⟩
      exfalso
      apply hn
      simp only [Bool.and_eq_true, Bool.or_eq_true, Bool.not_eq_true', decide_eq_true_eq] at hw
      rcases hw.2 with hb | hb
      · right; intro he; rw [o2.2 he] at hb; cases hb
      · exact .inl hb
    · rename_i hw
      cases h2
      refine ⟨hk, .refl _ _, g1, fun hn => ?_, fun hn => ?_⟩
      · have ht : t = {} := by
          apply Classical.byContradiction
          intro hne
          apply hw
          simp only [ne_eq, hne, not_false_eq_true, decide_true, Bool.true_and, Bool.or_eq_true,
            Bool.not_eq_true']
          rcases hn with hn | hn
          · exact .inr hn
          · left
            cases born with
            | false => rfl
            | true => exact absurd (o2.1 rfl) hn
        subst ht
        refine ⟨?_, fun k => rfl⟩
        cases old with
        | none => exact ⟨Mpt.rootHash env.keccak .empty, o3⟩
        | some b => exact ⟨b.storageRoot, o3⟩
      · have : old = none := by
          cases old with
          | none => rfl
          | some b => exact absurd (.inr (by simp)) hn
        rw [o3, this]
  obtain ⟨k1, f1, g2, hyes, hno⟩ := hw
  refine ⟨hgood, k1, ?_, status, old, bind_ok.2 ⟨m, hm, hs⟩, o1, ?_⟩
  · refine (o4.trans f1).trans ?_
    unfold destruct at h3
    split at h3
    · obtain ⟨w3, h4, h3⟩ := bind_ok.1 h3
      obtain ⟨g3, e1, e2⟩ := g2.destroyStorage h4
      obtain ⟨e3, -, e4⟩ := reportingDestroy_ok g3.state h3
      intro x hx
      exact ⟨by rw [e4, if_neg hx, e1], by rw [e3, e2, setStorage, if_neg hx]⟩
    · cases h3; exact .refl _ _
  · unfold destruct at h3
    by_cases hd : t.selfDestructed = true
    · rw [if_pos hd] at h3
      rw [if_pos hd]
      obtain ⟨w3, h4, h3⟩ := bind_ok.1 h3
      obtain ⟨g3, e1, e2⟩ := g2.destroyStorage h4
      obtain ⟨e3, -, e4⟩ := reportingDestroy_ok g3.state h3
      exact ⟨by rw [e4, if_pos rfl], by rw [e3, e2, setStorage, if_pos rfl]⟩
    · rw [if_neg hd] at h3
      rw [if_neg hd]
      cases h3
      split
      · rename_i hc
        obtain ⟨y1, y2⟩ := hyes (by simpa using hc)
        refine ⟨y1, fun k => ?_⟩
        rw [y2]
        split
        · rfl
        · exact o5 k
      · rename_i hc
        exact hno (by simpa using hc)

end

end Verif.Decoder
