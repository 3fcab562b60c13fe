import Verif.Decoder.Code
import Verif.World.Linked
/-!
# C26, C52: the tries handed to the prover
-/
namespace Verif.Decoder
open Mpt (Key Bytes Node H256 Entry Fixed)
open World

section
variable {env : Env} {ss : Mpt.Strategy}

/-! ## The invariant through the loops -/

theorem bear_good {a : Addr} {w w' : World1} {b : Bool} (hg : Good env.keccak w)
    (h : bear (type1 env.keccak ss) a w = .ok (w', b)) :
    Good env.keccak w' ∧ Ready env.keccak w' (env.keccak a) := by
  unfold bear at h
  obtain ⟨c, h1, h⟩ := bind_ok.1 h
  obtain ⟨o, h2, h1⟩ := bind_ok.1 h1
  cases o with
  | none =>
    cases h1
    obtain ⟨x, h3, h⟩ := bind_ok.1 h
    cases h
    exact hg.createStorage h2 h3
  | some x =>
    cases h1
    cases h
    exact ⟨hg, .of_some h2⟩

theorem writeSlots_good {a : Addr} {l : List (H256 × U256)} {w w' : World1} {ks : List Key}
    (hg : Good env.keccak w) (hr : Ready env.keccak w (env.keccak a))
    (h : writeSlots (type1 env.keccak ss) a w l = .ok (w', ks)) :
    Good env.keccak w' ∧ Ready env.keccak w' (env.keccak a) := by
  induction l generalizing w ks with
  | nil => cases h; exact ⟨hg, hr⟩
  | cons x l ih =>
    obtain ⟨k, v⟩ := x
    unfold writeSlots at h
    split at h
    · obtain ⟨⟨w1, r⟩, h1, h⟩ := bind_ok.1 h
      obtain ⟨⟨w2, rs⟩, h2, h⟩ := bind_ok.1 h
      cases h
      obtain ⟨g1, r1⟩ := hg.destroySlot h1
      exact ih g1 r1 h2
    · obtain ⟨w1, h1, h⟩ := bind_ok.1 h
      obtain ⟨g1, r1⟩ := hg.storeInt h1
      exact ih g1 r1 h

theorem useCode_good {a : Addr} {w w' : World1} {code code' : Hash2Code} {cc cc' : List Bytes}
    {u : Option CodeUsage} (hg : Good env.keccak w) (hr : Ready env.keccak w (env.keccak a))
    (h : useCode (type1 env.keccak ss) env a w code cc u = .ok (w', code', cc')) :
    Good env.keccak w' ∧ Ready env.keccak w' (env.keccak a) := by
  match u with
  | none => cases h; exact ⟨hg, hr⟩
  | some (.read x) =>
    unfold useCode at h
    dsimp only at h
    split at h
    · split at h
      · cases h
      · obtain ⟨y, h1, h⟩ := bind_ok.1 h
        cases h; exact hg.setCode hr h1
    · obtain ⟨y, h1, h⟩ := bind_ok.1 h
      cases h; exact hg.setCode hr h1
  | some (.write x) =>
    unfold useCode at h
    dsimp only at h
    obtain ⟨y, h1, h⟩ := bind_ok.1 h
    cases h; exact hg.setCode hr h1

theorem doWrites_good {a : Addr} {t : Trace} {w w' : World1} {code code' : Hash2Code}
    {cc cc' : List Bytes} {ks : List Key}
    (hg : Good env.keccak w) (hr : Ready env.keccak w (env.keccak a))
    (h : doWrites (type1 env.keccak ss) env a t w code cc = .ok (w', code', cc', ks)) :
    Good env.keccak w' ∧ Ready env.keccak w' (env.keccak a) := by
  unfold doWrites at h
  obtain ⟨w1, h1, h⟩ := bind_ok.1 h
  obtain ⟨w2, h2, h⟩ := bind_ok.1 h
  obtain ⟨⟨w3, c, cc1⟩, h3, h⟩ := bind_ok.1 h
  obtain ⟨⟨w4, ks1⟩, h4, h⟩ := bind_ok.1 h
  cases h
  have e1 : Good env.keccak w1 ∧ Ready env.keccak w1 (env.keccak a) := by
    unfold setBalance at h1
    split at h1
    · cases h1; exact ⟨hg, hr⟩
    · exact hg.updateBalance hr h1
  have e2 : Good env.keccak w2 ∧ Ready env.keccak w2 (env.keccak a) := by
    unfold setNonce at h2
    split at h2
    · cases h2; exact e1
    · exact e1.1.updateNonce e1.2 h2
  have e3 := useCode_good e2.1 e2.2 h3
  exact writeSlots_good e3.1 e3.2 h4

theorem applyTrace_good {rc : Bytes} {a : Addr} {t : Trace} {st st' : World1 × Hash2Code}
    {loc loc' : Loc Key} (hg : Good env.keccak st.1)
    (h : applyTrace (type1 env.keccak ss) env rc a t st loc = .ok (st', loc')) :
    Good env.keccak st'.1 := by
  unfold applyTrace at h
  obtain ⟨m, -, h⟩ := bind_ok.1 h
  obtain ⟨status, -, h⟩ := bind_ok.1 h
  obtain ⟨⟨w, born⟩, h1, h⟩ := bind_ok.1 h
  obtain ⟨⟨w1, code, cc, ks⟩, h2, h⟩ := bind_ok.1 h
  obtain ⟨⟨w2, p⟩, h3, h⟩ := bind_ok.1 h
  cases h
  have e1 := bear_good hg h1
  have e2 : Good env.keccak w1 := by
    unfold writePhase at h2
    split at h2
    · exact (doWrites_good e1.1 e1.2 h2).1
    · cases h2; exact e1.1
  unfold destruct at h3
  split at h3
  · obtain ⟨w3, h4, h3⟩ := bind_ok.1 h3
    exact (e2.destroyStorage h4).1.reportingDestroy h3
  · cases h3; exact e2

theorem applyTraces_good {rc : Bytes} {l : List (Addr × Trace)} {st st' : World1 × Hash2Code}
    {loc loc' : Loc Key} (hg : Good env.keccak st.1)
    (h : applyTraces (type1 env.keccak ss) env rc l st loc = .ok (st', loc')) :
    Good env.keccak st'.1 := by
  induction l generalizing st loc with
  | nil => cases h; exact hg
  | cons x l ih =>
    obtain ⟨a, t⟩ := x
    unfold applyTraces at h
    obtain ⟨⟨st1, loc1⟩, h1, h⟩ := bind_ok.1 h
    exact ih (applyTrace_good hg h1) h

theorem applyTxns_good {l : List (Option Txn)} {st st' : St World1} {loc loc' : Loc Key}
    (hg : Good env.keccak st.world)
    (h : applyTxns (type1 env.keccak ss) env l st loc = .ok (st', loc')) :
    Good env.keccak st'.world := by
  induction l generalizing st loc with
  | nil => cases h; exact hg
  | cons t l ih =>
    unfold applyTxns at h
    obtain ⟨⟨st1, loc1⟩, h1, h⟩ := bind_ok.1 h
    unfold applyTxn at h1
    obtain ⟨⟨tt, rt, bc⟩, -, h1⟩ := bind_ok.1 h1
    obtain ⟨⟨⟨w, code⟩, loc2⟩, h2, h1⟩ := bind_ok.1 h1
    cases h1
    exact ih (applyTraces_good hg h2) h

/-! ## The hooks -/

theorem beaconStore_good {w w' : World1} {m m' : Masks} {ix u : U256} (hg : Good env.keccak w)
    (h : beaconStore (type1 env.keccak ss) env w m ix u = .ok (w', m')) : Good env.keccak w' := by
  unfold beaconStore at h
  dsimp only at h
  split at h
  · obtain ⟨⟨w1, r⟩, h1, h⟩ := bind_ok.1 h
    cases h
    exact (hg.destroySlot h1).1
  · obtain ⟨w1, h1, h⟩ := bind_ok.1 h
    cases h
    exact (hg.storeInt h1).1

theorem beaconHook_good {b : Block} {w w' : World1} {m : Masks} {p : List Key}
    (hg : Good env.keccak w) (h : beaconHook (type1 env.keccak ss) env b w = .ok (w', m, p)) :
    Good env.keccak w' := by
  unfold beaconHook at h
  obtain ⟨⟨w1, m1⟩, h1, h⟩ := bind_ok.1 h
  obtain ⟨⟨w2, m2⟩, h2, h⟩ := bind_ok.1 h
  cases h
  exact beaconStore_good (beaconStore_good hg h1) h2

theorem scalableStore_good {w w' : World1} {m m' : Masks} {ix u : U256} (hg : Good env.keccak w)
    (h : scalableStore (type1 env.keccak ss) env w m ix u = .ok (w', m')) : Good env.keccak w' := by
  unfold scalableStore at h
  split at h
  · cases h
  · obtain ⟨w1, h1, h⟩ := bind_ok.1 h
    cases h
    exact (hg.storeInt h1).1

theorem scalableHook_good {b : Block} {ger : Option (H256 × H256)} {w w' : World1} {m : Masks}
    {p : List Key} (hg : Good env.keccak w)
    (h : scalableHook (type1 env.keccak ss) env b ger w = .ok (w', m, p)) : Good env.keccak w' := by
  unfold scalableHook at h
  split at h
  · cases h
  · obtain ⟨⟨w1, m1⟩, h1, h⟩ := bind_ok.1 h
    obtain ⟨⟨w2, m2⟩, h2, h⟩ := bind_ok.1 h
    obtain ⟨w3, h3, h⟩ := bind_ok.1 h
    have g3 := ((scalableStore_good (scalableStore_good hg h1) h2).storeHash h3).1
    cases ger with
    | none => cases h; exact g3
    | some x =>
      obtain ⟨root, l1⟩ := x
      dsimp only at h
      obtain ⟨w4, h4, h⟩ := bind_ok.1 h
      cases h
      exact (g3.storeHash h4).1

theorem preExecution_good {c : Chain} {b : Block} {ger : Option (H256 × H256)} {w w' : World1}
    {m : Masks} {p : List Key} (hg : Good env.keccak w)
    (h : preExecution (type1 env.keccak ss) env c b ger w = .ok (w', m, p)) : Good env.keccak w' := by
  cases c with
  | ethMainnet => exact beaconHook_good hg h
  | cdkErigon => exact scalableHook_good hg h
  | polygonPos => cases h; exact hg

/-! ## C26 -/

theorem runBatches_linked {pre : Hook World1 Key} {n : Nat} {bs : List (List (Option Txn))}
    {st st2 : St World1} {out : List (Batch World1)}
    (hpre : ∀ w w' m p, Good env.keccak w → pre w = .ok (w', m, p) → Good env.keccak w')
    (h : runBatches (type1 env.keccak ss) env pre n bs st = .ok (st2, out))
    (hg : Good env.keccak st.world) (hne : ∀ b ∈ bs, b ≠ [])
    (hn : n = st.loopIx + bs.flatten.length) : ∀ o ∈ out, Linked env.keccak o.world := by
  induction bs generalizing st out with
  | nil => cases h; simp
  | cons b bs ih =>
    obtain ⟨st1, o, os, rfl, h1, h2⟩ := runBatches_cons h
    obtain ⟨r⟩ := runBatch_inv h1
    obtain ⟨a1, a2, a3, a4, a5⟩ := applyTxns_inv r.txns
    simp only at a2
    intro x hx
    rcases List.mem_cons.1 hx with rfl | hx
    · exact hg.linked.mask r.mask r.mstor
    · by_cases hb : bs = []
      · subst hb; cases h2; simp at hx
      · have hpos : 0 < bs.flatten.length := by
          cases bs with
          | nil => exact absurd rfl hb
          | cons c cs =>
            have := List.length_pos_iff.2 (hne c (by simp))
            simp; omega
        have hlast : ¬ r.st'.loopIx = n := by simp at hn; simp at hpos; omega
        have g0 : Good env.keccak r.w0 := by
          have := r.hook
          unfold runHook at this
          split at this
          · exact hpre _ _ _ _ hg this
          · rw [← (Prod.mk.inj (Except.ok.inj this)).1]; exact hg
        have g1 : Good env.keccak r.st'.world := applyTxns_good g0 r.txns
        have hw := r.wds
        rw [if_neg hlast] at hw
        have g2 : Good env.keccak st1.world := by
          rw [r.st2_eq]
          unfold applyWithdrawals at hw
          have he : r.st'.world = r.w' := Except.ok.inj hw
          show Good env.keccak r.w'
          rw [← he]; exact g1
        refine ih h2 g2 (fun b hb => hne b (by simp [hb])) ?_ x hx
        have : st1.loopIx = st.loopIx + b.length := by rw [r.st2_eq]; exact a2
        rw [this, hn]; simp; omega

/-- **C26** for the tries given to the prover: in every proof input of every block, whatever the
traces, the batching, the network and the withdrawals, the storage root recorded in an account is the
root of the storage trie supplied for that account. -/
theorem C26_inputs_linked {state : Node} {items : List (Key × Entry)} {storage : H256 → Option Node}
    {world : World1} {chain : Chain} {blk : Block} {ger : Option (H256 × H256)} {code : Hash2Code}
    {db : List Bytes} {txns : List Txn} {hint : Nat} {wds : List (Addr × U256)}
    {is : List (GenInput World1)}
    (hs : Fixed 64 state) (hst : ∀ h t, storage h = some t → Fixed 64 t) (hi : ItemsOf state items)
    (hw : new1 env.keccak state items storage = .ok world)
    (h : entrypoint (type1 env.keccak ss) env chain blk ger world code db txns hint wds = .ok is) :
    ∀ i ∈ is, ∀ hsh a t, stateGet i.world.state hsh = .ok (some a) → i.world.storage hsh = some t →
      a.storageRoot = Mpt.rootHash env.keccak t := by
  obtain ⟨-, ws, st2, out, h1, h2, rfl⟩ := entrypoint_inv h
  obtain ⟨-, b2, b3, -⟩ := C23_batches txns hint
  have := runBatches_linked (fun _ _ _ _ hg hp => preExecution_good hg hp) h2 (new1_good hs hst hi hw)
    (fun b hb => (b3 b hb).1) (by simp)
  intro i hin
  have hin' : i.world ∈ (toInputs (type1 env.keccak ss) 0 out).map (·.world) := List.mem_map.2 ⟨i, hin, rfl⟩
  have hmap : ∀ g, (toInputs (type1 env.keccak ss) g out).map (·.world) = out.map (·.world) := by
    clear this h2 h hin hin'
    induction out with
    | nil => intro g; rfl
    | cons b bs ih => intro g; simp [toInputs, ih]
  rw [hmap] at hin'
  obtain ⟨o, ho, e⟩ := List.mem_map.1 hin'
  rw [← e]
  exact this o ho

/-- An operation of the world interface. -/
inductive WOp where
  | balance (a : Addr) (v : U256)
  | nonce (a : Addr) (v : U256)
  | code (a : Addr) (c : Bytes)
  | destroy (a : Addr)
  | createStorage (a : Addr)
  | destroyStorage (a : Addr)
  | store (a : Addr) (slot v : U256)
  | clear (a : Addr) (slot : U256)

/-- Effect of an operation on a world. -/
def WOp.run {W P : Type} (I : Ops W P) (w : W) : WOp → Except Err W
  | .balance a v => I.updateBalance w a (fun _ => .ok v)
  | .nonce a v => I.updateNonce w a (fun _ => .ok v)
  | .code a c => I.setCode w a (.inl c)
  | .destroy a => do return (← I.reportingDestroy w a).1
  | .createStorage a => I.createStorage w a
  | .destroyStorage a => I.destroyStorage w a
  | .store a s v => I.storeInt w a s v
  | .clear a s => do return (← I.reportingDestroySlot w a s).1

/-- Effect of a sequence of operations. -/
def runOps {W P : Type} (I : Ops W P) : W → List WOp → Except Err W
  | w, [] => .ok w
  | w, o :: l => do runOps I (← o.run I w) l

/-- Full statement of C26: any sequence of operations of the world interface, from an empty world.
(It is false: see `C26_violated_create_storage`.) -/
def C26_statement : Prop :=
  ∀ (keccak : Bytes → H256) (ss : Mpt.Strategy) (ops : List WOp) (w : World1),
    runOps (type1 keccak ss) ⟨.empty, fun _ => none⟩ ops = .ok w → Linked keccak w

/-- The discipline of the trace decoder: storage is created only for an account that is not there, and
an account is destroyed only after its storage. -/
def Tidy (keccak : Bytes → H256) (ss : Mpt.Strategy) : World1 → List WOp → Prop
  | _, [] => True
  | w, o :: l =>
    (∀ a, o = .createStorage a → stateGet w.state (keccak a) = .ok none) ∧
    (∀ a, o = .destroy a → w.storage (keccak a) = none) ∧
    ∀ w', o.run (type1 keccak ss) w = .ok w' → Tidy keccak ss w' l

theorem ready_congr {keccak : Bytes → H256} {w w' : World1} {h : H256} (hr : Ready keccak w h)
    (h1 : stateGet w'.state h = stateGet w.state h) (h2 : w'.storage h = w.storage h) :
    Ready keccak w' h := by
  intro h0 t ht
  exact hr (by rw [← h1]; exact h0) t (by rw [← h2]; exact ht)

theorem readyAll_onAcct {keccak : Bytes → H256} {w w' : World1} {a : Addr} {f : Acct → Except Err Acct}
    (hg : Good keccak w) (hr : ∀ h, Ready keccak w h) (h : onAcct keccak w a f = .ok w') :
    ∀ h, Ready keccak w' h := by
  obtain ⟨old, b, h1, h2, h3, h4, h5⟩ := onAcct_ok hg.state h
  intro x
  by_cases hx : x = keccak a
  · subst hx; exact .of_some (a := b) (by rw [h5, if_pos rfl])
  · exact ready_congr (hr x) (by rw [h5, if_neg hx]) (by rw [h3])

theorem readyAll_onStorage {α} {keccak : Bytes → H256} {w w' : World1} {a : Addr}
    {f : Node → Except Err (Node × α)} {r : α}
    (hg : Good keccak w) (hr : ∀ h, Ready keccak w h) (h : onStorage keccak w a f = .ok (w', r)) :
    ∀ h, Ready keccak w' h := by
  obtain ⟨b, t, t', h1, h2, h3, h4, h5, h6⟩ := onStorage_ok hg.state h
  intro x
  by_cases hx : x = keccak a
  · subst hx
    exact .of_some (a := { b with storageRoot := Mpt.rootHash keccak t' }) (by rw [h6, if_pos rfl])
  · exact ready_congr (hr x) (by rw [h6, if_neg hx]) (by rw [h4, setStorage, if_neg hx])

theorem WOp.run_good {keccak : Bytes → H256} {w w' : World1} {o : WOp} (hg : Good keccak w)
    (hr : ∀ h, Ready keccak w h)
    (hc : ∀ a, o = .createStorage a → stateGet w.state (keccak a) = .ok none)
    (hd : ∀ a, o = .destroy a → w.storage (keccak a) = none)
    (h : o.run (type1 keccak ss) w = .ok w') : Good keccak w' ∧ ∀ h, Ready keccak w' h := by
  cases o with
  | balance a v => exact ⟨(hg.updateBalance (hr _) h).1,
      readyAll_onAcct (f := fun a => do return { a with balance := ← .ok v }) hg hr h⟩
  | nonce a v => exact ⟨(hg.updateNonce (hr _) h).1,
      readyAll_onAcct (f := fun a => do return { a with nonce := ← .ok v }) hg hr h⟩
  | code a c => exact ⟨(hg.setCode (hr _) h).1,
      readyAll_onAcct (f := fun a => .ok { a with codeHash := codeHashOf keccak (.inl c) }) hg hr h⟩
  | destroy a =>
    obtain ⟨⟨w1, r⟩, h1, h⟩ := bind_ok.1 h
    cases h
    obtain ⟨e1, e2, e3⟩ := reportingDestroy_ok hg.state h1
    refine ⟨hg.reportingDestroy h1, fun x => ?_⟩
    by_cases hx : x = keccak a
    · intro _ t ht
      have := hd a rfl
      dsimp only at ht
      rw [e1, hx, this] at ht; cases ht
    · exact ready_congr (hr x) (by dsimp only; rw [e3, if_neg hx]) (by dsimp only; rw [e1])
  | createStorage a =>
    have := hg.createStorage (hc a rfl) h
    refine ⟨this.1, fun x => ?_⟩
    by_cases hx : x = keccak a
    · subst hx; exact this.2
    · cases h
      exact ready_congr (hr x) rfl (by simp [setStorage, hx])
  | destroyStorage a =>
    obtain ⟨g, e1, e2⟩ := hg.destroyStorage h
    refine ⟨g, fun x => ?_⟩
    by_cases hx : x = keccak a
    · intro _ t ht
      rw [e2, hx, setStorage, if_pos rfl] at ht; cases ht
    · exact ready_congr (hr x) (by rw [e1]) (by rw [e2, setStorage, if_neg hx])
  | store a s v => exact ⟨(hg.storeInt h).1, readyAll_onStorage hg hr (storeInt_inv h)⟩
  | clear a s =>
    obtain ⟨⟨w1, r⟩, h1, h⟩ := bind_ok.1 h
    cases h
    exact ⟨(hg.destroySlot h1).1, readyAll_onStorage hg hr h1⟩

/-- **C26** for sequences of operations (partial: under the discipline `Tidy`, which the decoder
follows). -/
theorem C26_linked_partial (keccak : Bytes → H256) (ops : List WOp) (w : World1)
    (ht : Tidy keccak ss ⟨.empty, fun _ => none⟩ ops)
    (h : runOps (type1 keccak ss) ⟨.empty, fun _ => none⟩ ops = .ok w) : Linked keccak w := by
  have key : ∀ (ops : List WOp) (w0 : World1), Good keccak w0 → (∀ h, Ready keccak w0 h) →
      Tidy keccak ss w0 ops → runOps (type1 keccak ss) w0 ops = .ok w → Linked keccak w := by
    intro ops
    induction ops with
    | nil => intro w0 hg _ _ h; cases h; exact hg.linked
    | cons o ops ih =>
      intro w0 hg hr ⟨t1, t2, t3⟩ h
      obtain ⟨w1, h1, h⟩ := bind_ok.1 h
      obtain ⟨g, r⟩ := WOp.run_good hg hr t1 t2 h1
      exact ih w1 g r (t3 w1 h1) h
  refine key ops _ ⟨Fixed.empty _, by simp, ?_⟩ ?_ ht h
  · intro h a t _ h2; cases h2
  · intro h _ t h2; cases h2

/-- A hash function for the examples: the last bytes of the input. -/
def toyHash (b : Bytes) : H256 := ⟨(b.reverse ++ List.replicate 32 0).take 32, by simp⟩

/-- Operations of the witness. -/
def badOps : List WOp :=
  [.createStorage [1], .balance [1] 5, .store [1] 1 7, .createStorage [1]]

/-- **C26 is violated** for arbitrary sequences of operations: `create_storage` on an account that has
storage empties the trie and leaves the old root in the account. -/
theorem C26_violated_create_storage : ¬ C26_statement := by
  intro h
  have key : (match runOps (type1 toyHash .collapseToExtension) ⟨.empty, fun _ => none⟩ badOps with
      | .ok w => match stateGet w.state (toyHash [1]), w.storage (toyHash [1]) with
        | .ok (some a), some t => decide (a.storageRoot ≠ Mpt.rootHash toyHash t)
        | _, _ => false
      | .error _ => false) = true := by decide +kernel
  split at key
  · rename_i w hw
    split at key
    · rename_i a t ha ht
      exact absurd (h toyHash _ badOps w hw _ a t ha ht) (by simpa using key)
    · cases key
  · cases key

/-- Non-vacuity of `C26_linked_partial`: a tidy sequence that ends with a non-empty storage trie and a
destroyed account. -/
example : Tidy toyHash .collapseToExtension ⟨.empty, fun _ => none⟩
      [.createStorage [1], .balance [1] 5, .store [1] 1 7, .destroyStorage [1], .destroy [1]] := by
  refine ⟨fun a ha => ?_, by simp, fun w h => ?_⟩
  · cases ha; rfl
  cases h
  refine ⟨by simp, by simp, fun w h => ⟨by simp, by simp, fun w h => ⟨by simp, by simp, fun w h => ?_⟩⟩⟩
  refine ⟨by simp, fun a ha => ?_, fun _ _ => trivial⟩
  cases ha
  simp only [WOp.run, type1] at h
  split at h
  · cases h
  · cases h; simp [setStorage]

/-! ## C52 -/

/-- Roots at the boundaries of a list of inputs: each input's tries have the roots the previous one
ended with. -/
inductive RootsChain (I : Ops W P) (keccak : Bytes → H256) : H256 → H256 → H256 → List (GenInput W) → Prop where
  | nil (s t r) : RootsChain I keccak s t r []
  | cons {s t r i is} (h1 : I.root i.world = s) (h2 : Mpt.rootHash keccak i.txnTrie = t)
      (h3 : Mpt.rootHash keccak i.rctTrie = r)
      (h : RootsChain I keccak i.stateRootAfter i.txnRootAfter i.rctRootAfter is) :
      RootsChain I keccak s t r (i :: is)

theorem maskTxns_root {t t' : Node} {lo hi : Nat} (h : maskTxns env t lo hi = .ok t') :
    Mpt.rootHash env.keccak t' = Mpt.rootHash env.keccak t :=
  (createSubset_mask (ofSubset_ok.1 h)).rootHash

theorem runBatches_roots {W P : Type} {I : Ops W P} {pre : Hook W P} {n : Nat}
    {bs : List (List (Option Txn))} {st st2 : St W} {out : List (Batch W)}
    (hmask : ∀ w w1 w2 ps ms, I.mask w ps = .ok w1 → I.maskStorage w1 ms = .ok w2 →
      I.root w2 = I.root w)
    (h : runBatches I env pre n bs st = .ok (st2, out)) (g : Nat) :
    RootsChain I env.keccak (I.root st.world) (Mpt.rootHash env.keccak st.txnTrie)
      (Mpt.rootHash env.keccak st.rctTrie) (toInputs I g out) := by
  induction bs generalizing st out g with
  | nil => cases h; exact .nil _ _ _
  | cons b bs ih =>
    obtain ⟨st1, o, os, rfl, h1, h2⟩ := runBatches_cons h
    obtain ⟨r⟩ := runBatch_inv h1
    refine .cons (hmask _ _ _ _ _ r.mask r.mstor) (maskTxns_root r.mtxn) (maskTxns_root r.mrct) ?_
    have := ih h2 (g + o.gasUsed)
    rw [r.st2_eq] at this
    rw [r.o_root, r.o_troot, r.o_rroot]
    exact this

theorem RootsChain.step {I : Ops W P} {keccak : Bytes → H256} {s t r : H256} {is : List (GenInput W)}
    (h : RootsChain I keccak s t r is) (j : Nat) (a b : GenInput W) (ha : is[j]? = some a)
    (hb : is[j + 1]? = some b) :
    I.root b.world = a.stateRootAfter ∧ Mpt.rootHash keccak b.txnTrie = a.txnRootAfter ∧
      Mpt.rootHash keccak b.rctTrie = a.rctRootAfter := by
  induction h generalizing j with
  | nil => simp at ha
  | cons h1 h2 h3 h ih =>
    cases j with
    | zero =>
      simp only [List.getElem?_cons_zero, Option.some.injEq] at ha
      subst ha
      cases h with
      | nil => simp at hb
      | cons k1 k2 k3 _ =>
        simp only [Nat.zero_add, List.getElem?_cons_succ, List.getElem?_cons_zero,
          Option.some.injEq] at hb
        subst hb
        exact ⟨k1, k2, k3⟩
    | succ j =>
      simp only [List.getElem?_cons_succ] at ha hb
      exact ih j ha hb

/-- **C52**. The proof inputs of a block form a chain of trie roots: the first input's tries have the
root of the initial state and of empty transaction and receipt tries; the tries of each later input,
although masked, have exactly the roots that the previous input declares to end with. -/
theorem C52_roots_chain {world : World1} {chain : Chain} {blk : Block} {ger : Option (H256 × H256)}
    {code : Hash2Code} {db : List Bytes} {txns : List Txn} {hint : Nat} {wds : List (Addr × U256)}
    {is : List (GenInput World1)}
    (h : entrypoint (type1 env.keccak ss) env chain blk ger world code db txns hint wds = .ok is) :
    (∀ a, is.head? = some a →
      Mpt.rootHash env.keccak a.world.state = Mpt.rootHash env.keccak world.state ∧
      Mpt.rootHash env.keccak a.txnTrie = Mpt.rootHash env.keccak .empty ∧
      Mpt.rootHash env.keccak a.rctTrie = Mpt.rootHash env.keccak .empty) ∧
    ∀ j a b, is[j]? = some a → is[j + 1]? = some b →
      Mpt.rootHash env.keccak b.world.state = a.stateRootAfter ∧
      Mpt.rootHash env.keccak b.txnTrie = a.txnRootAfter ∧
      Mpt.rootHash env.keccak b.rctTrie = a.rctRootAfter := by
  obtain ⟨-, ws, st2, out, h1, h2, rfl⟩ := entrypoint_inv h
  have hc := runBatches_roots (fun w w1 w2 ps ms hm hms => mask_root hm hms) h2 0
  refine ⟨fun a ha => ?_, fun j a b ha hb => hc.step j a b ha hb⟩
  generalize toInputs (type1 env.keccak ss) 0 out = is at hc ha
  cases hc with
  | nil => simp at ha
  | cons k1 k2 k3 _ => simp at ha; subst ha; exact ⟨k1, k2, k3⟩

end

/-- The block of the example: creates an account with a slot, then writes another slot. -/
def toyTraces : List Txn :=
  [{ byteCode := [1], receipt := [9], traces :=
      [([1], { balance := some 5, storageWritten := [(toyHash [3], 7)] })] },
   { byteCode := [2], receipt := [9], traces := [([1], { storageWritten := [(toyHash [4], 8)] })] }]

/-- Surroundings for the example. -/
def toyEnv1 : Env := { toyEnv with keccak := toyHash }

/-- Non-vacuity of C26, C52: the second input has the account and its storage trie. -/
example : (match entrypoint (type1 toyHash .collapseToExtension) toyEnv1 .polygonPos ⟨1, 1, toyHash []⟩ none
      ⟨.empty, fun _ => none⟩ (Hash2Code.new toyHash) [] toyTraces 1 [] with
    | .ok [i, j] => match stateGet j.world.state (toyHash [1]), j.world.storage (toyHash [1]) with
      | .ok (some a), some t => decide (a.storageRoot = Mpt.rootHash toyHash t ∧
          a.storageRoot ≠ Mpt.rootHash toyHash .empty ∧ i.stateRootAfter ≠ Mpt.rootHash toyHash .empty)
      | _, _ => false
    | _ => false) = true := by
  have : batch toyTraces 1 = [[some { byteCode := [1], receipt := [9], traces :=
      [([1], { balance := some 5, storageWritten := [(toyHash [3], 7)] })] }],
    [some { byteCode := [2], receipt := [9], traces :=
      [([1], { storageWritten := [(toyHash [4], 8)] })] }]] := by
    simp [batch, chunks, toyTraces]
  unfold entrypoint
  rw [this]
  decide +kernel

end Verif.Decoder
