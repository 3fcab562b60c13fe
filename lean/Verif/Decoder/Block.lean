import Verif.Decoder.Semantics
/-!
# C54: the state after a block

An abstract state maps account hashes to accounts with their slots; a block acts on it by folding a
small function over its traces and withdrawals.  The decoder's tries represent exactly that state, for
every way of splitting the block into batches.
-/
namespace Verif.Decoder
open Mpt (Key Bytes Node H256 Entry Fixed valueAt lookup)
open World

/-! ## Specification -/

/-- An account: its fields and the encoded values of its slots (named by trie key). -/
structure AAcct where
  balance : U256
  nonce : U256
  codeHash : H256
  slots : Key → Option Bytes

/-- The account that is not there yet. -/
def AAcct.fresh (keccak : Bytes → H256) : AAcct := ⟨0, 0, keccak [], fun _ => none⟩

/-- Slots after a list of writes. -/
def writeAll (keccak : Bytes → H256) (l : List (H256 × U256)) (s : Key → Option Bytes) :
    Key → Option Bytes :=
  fun k => match lastWrite keccak l k with
    | some v => slotEnc v
    | none => s k

/-- An account after a trace of a transaction with this status. -/
def specTrace (keccak : Bytes → H256) (status : Bool) (t : Trace) (o : Option AAcct) : Option AAcct :=
  if t.selfDestructed then none
  else if o.isNone ∧ (status = false ∨ t.balance = none ∧ t.nonce = none ∧ t.codeUsage = none) then none
  else
    let a := o.getD (.fresh keccak)
    some {
      balance := t.balance.getD a.balance
      nonce := t.nonce.getD a.nonce
      codeHash := (t.codeUsage.map (·.hash keccak)).getD a.codeHash
      slots := writeAll keccak t.storageWritten a.slots }

/-- An abstract state. -/
abbrev AState := H256 → Option AAcct

/-- Change of one account. -/
def AState.set (A : AState) (h : H256) (o : Option AAcct) : AState := fun x => if x = h then o else A x

/-- A state after the traces of a transaction. -/
def specTraces (keccak : Bytes → H256) (status : Bool) (l : List (Addr × Trace)) (A : AState) : AState :=
  l.foldl (fun A x => A.set (keccak x.1) (specTrace keccak status x.2 (A (keccak x.1)))) A

/-- A state after a list of transactions. -/
def specTxns (env : Env) (l : List Txn) (A : AState) : AState :=
  l.foldl (fun A t => specTraces env.keccak
    ((env.mapReceipt t.receipt >>= env.status) matches .ok true) t.traces A) A

/-- A state after withdrawals (amounts in wei). -/
def specWithdrawals (keccak : Bytes → H256) (l : List (Addr × U256)) (A : AState) : AState :=
  l.foldl (fun A x =>
    let a := (A (keccak x.1)).getD (.fresh keccak)
    A.set (keccak x.1) (some { a with balance := a.balance + x.2 })) A

/-- The tries of a world represent an abstract state. -/
def Rep (w : World1) (A : AState) : Prop :=
  ∀ h, match A h with
    | none => stateGet w.state h = .ok none ∧ ∀ k, slotVal w h k = none
    | some s => ∃ r, stateGet w.state h = .ok (some ⟨s.nonce, s.balance, r, s.codeHash⟩) ∧
        ∀ k, slotVal w h k = s.slots k

section
variable {env : Env} {ss : Mpt.Strategy}

theorem Rep.get_none {w : World1} {A : AState} (h : Rep w A) {x : H256} (hx : A x = none) :
    stateGet w.state x = .ok none ∧ ∀ k, slotVal w x k = none := by
  have := h x; rw [hx] at this; exact this

theorem Rep.get_some {w : World1} {A : AState} (h : Rep w A) {x : H256} {s : AAcct} (hx : A x = some s) :
    ∃ r, stateGet w.state x = .ok (some ⟨s.nonce, s.balance, r, s.codeHash⟩) ∧
        ∀ k, slotVal w x k = s.slots k := by
  have := h x; rw [hx] at this; exact this

/-- To show that a world represents an updated state, look at the updated account only. -/
theorem Rep.set {w w' : World1} {A : AState} (h : Rep w A) {x : H256} {o : Option AAcct}
    (hf : Frame x w w')
    (hx : match o with
      | none => stateGet w'.state x = .ok none ∧ ∀ k, slotVal w' x k = none
      | some s => ∃ r, stateGet w'.state x = .ok (some ⟨s.nonce, s.balance, r, s.codeHash⟩) ∧
        ∀ k, slotVal w' x k = s.slots k) : Rep w' (A.set x o) := by
  intro y
  unfold AState.set
  by_cases hy : y = x
  · subst hy; rw [if_pos rfl]; exact hx
  · rw [if_neg hy]
    have hsl : ∀ k, slotVal w' y k = slotVal w y k := by
      intro k; unfold slotVal; rw [(hf y hy).2]
    cases hA : A y with
    | none =>
      obtain ⟨e1, e2⟩ := h.get_none hA
      exact ⟨by rw [(hf y hy).1]; exact e1, fun k => by rw [hsl]; exact e2 k⟩
    | some s =>
      obtain ⟨r, e1, e2⟩ := h.get_some hA
      exact ⟨r, by rw [(hf y hy).1]; exact e1, fun k => by rw [hsl]; exact e2 k⟩

/-- Storage of an account that was rejected at birth is empty. -/
theorem applyTrace_unborn {rc : Bytes} {addr : Addr} {t : Trace} {st st' : World1 × Hash2Code}
    {loc loc' : Loc Key} (hn : stateGet st.1.state (env.keccak addr) = .ok none)
    (hs : (env.mapReceipt rc >>= env.status) = .ok false) (hd : t.selfDestructed = false)
    (h : applyTrace (type1 env.keccak ss) env rc addr t st loc = .ok (st', loc')) :
    ∀ k, slotVal st'.1 (env.keccak addr) k = none := by
  unfold applyTrace at h
  obtain ⟨m, hm, h⟩ := bind_ok.1 h
  obtain ⟨status, hs', h⟩ := bind_ok.1 h
  obtain ⟨⟨w, born⟩, h1, h⟩ := bind_ok.1 h
  obtain ⟨⟨w1, code, cc, ks⟩, h2, h⟩ := bind_ok.1 h
  obtain ⟨⟨w2, p⟩, h3, h⟩ := bind_ok.1 h
  cases h
  have hst : status = false := by
    have := bind_ok.2 ⟨m, hm, hs'⟩
    rw [hs] at this; cases this; rfl
  unfold bear at h1
  obtain ⟨c, hc, h1⟩ := bind_ok.1 h1
  obtain ⟨old, hold, hc⟩ := bind_ok.1 hc
  rw [hn] at hold
  cases hold
  cases hc
  obtain ⟨x, h4, h1⟩ := bind_ok.1 h1
  cases h1
  cases h4
  subst hst
  unfold writePhase at h2
  rw [if_neg (by simp)] at h2
  cases h2
  unfold destruct at h3
  rw [hd, if_neg (by simp)] at h3
  cases h3
  intro k
  simp [slotVal, setStorage, valueAt]

theorem applyTrace_rep {rc : Bytes} {addr : Addr} {t : Trace} {st st' : World1 × Hash2Code}
    {loc loc' : Loc Key} {A : AState} (hg : Good env.keccak st.1) (hk : Keyed env.keccak st.2)
    (hA : Rep st.1 A) (h : applyTrace (type1 env.keccak ss) env rc addr t st loc = .ok (st', loc')) :
    Good env.keccak st'.1 ∧ Keyed env.keccak st'.2 ∧
      Rep st'.1 (A.set (env.keccak addr) (specTrace env.keccak
        ((env.mapReceipt rc >>= env.status) matches .ok true) t (A (env.keccak addr)))) := by
  obtain ⟨g, k, f, status, old, hs, ho, hc⟩ := C54_trace hg hk h
  refine ⟨g, k, hA.set f ?_⟩
  have hm : ((env.mapReceipt rc >>= env.status) matches .ok true) = status := by
    rw [hs]; cases status <;> rfl
  rw [hm]
  by_cases hd : t.selfDestructed = true
  · rw [if_pos hd] at hc
    simp only [specTrace, hd, if_true]
    exact ⟨hc.1, fun k => by unfold slotVal; rw [hc.2]; rfl⟩
  · rw [if_neg hd] at hc
    simp only [specTrace, hd, Bool.false_eq_true, if_false]
    cases hAx : A (env.keccak addr) with
    | none =>
      obtain ⟨e1, e2⟩ := hA.get_none hAx
      rw [ho] at e1
      cases e1
      simp only [Option.isNone_none, true_and, Option.getD_none]
      cases hst : status with
      | false =>
        subst hst
        rw [if_neg (by simp)] at hc
        simp only [true_or, if_true]
        exact ⟨hc, applyTrace_unborn ho hs (by simpa using hd) h⟩
      | true =>
        subst hst
        rw [if_pos (by simp)] at hc
        obtain ⟨⟨r, c1⟩, c2⟩ := hc
        simp only [if_true] at c2
        simp only [Bool.true_eq_false, false_or]
        by_cases ht : t.balance = none ∧ t.nonce = none ∧ t.codeUsage = none
        · rw [if_pos ht]
          rw [Trace.account, if_pos ht] at c1
          refine ⟨c1, fun k => ?_⟩
          -- writes to a missing account fail
          by_cases hw : t.storageWritten = []
          · rw [c2, hw]; rfl
          · exfalso
            unfold applyTrace at h
            obtain ⟨m, hm', h⟩ := bind_ok.1 h
            obtain ⟨status', hs', h⟩ := bind_ok.1 h
            obtain ⟨⟨w, born⟩, h1, h⟩ := bind_ok.1 h
            obtain ⟨⟨w1, code, cc, ks⟩, h2, h⟩ := bind_ok.1 h
            have hst : status' = true := by
              have := bind_ok.2 ⟨m, hm', hs'⟩
              rw [hs] at this; cases this; rfl
            subst hst
            have hne : t ≠ {} := fun e => hw (by rw [e])
            unfold writePhase at h2
            rw [if_pos (by simp [hne])] at h2
            unfold doWrites at h2
            rw [ht.1, ht.2.1, ht.2.2] at h2
            obtain ⟨w3, h3, h2⟩ := bind_ok.1 h2
            cases h3
            obtain ⟨w4, h4, h2⟩ := bind_ok.1 h2
            cases h4
            obtain ⟨⟨w5, _, _⟩, h5, h2⟩ := bind_ok.1 h2
            cases h5
            obtain ⟨⟨w6, ks6⟩, h6, h2⟩ := bind_ok.1 h2
            have hnow : stateGet w.state (env.keccak addr) = .ok none := by
              unfold bear at h1
              obtain ⟨c, hc, h1⟩ := bind_ok.1 h1
              obtain ⟨old, hold, hc⟩ := bind_ok.1 hc
              rw [ho] at hold
              cases hold
              cases hc
              obtain ⟨x, h4, h1⟩ := bind_ok.1 h1
              cases h1
              cases h4
              exact ho
            obtain ⟨x, xs, hx⟩ := List.exists_cons_of_ne_nil hw
            obtain ⟨s, v⟩ := x
            rw [hx] at h6
            have gw := (bear_good hg h1).1
            unfold writeSlots at h6
            split at h6
            · obtain ⟨⟨w7, r7⟩, h7, -⟩ := bind_ok.1 h6
              obtain ⟨⟨b, _, hb, -⟩, -⟩ := destroySlot_sem gw h7
              rw [hnow] at hb; cases hb
            · obtain ⟨w7, h7, -⟩ := bind_ok.1 h6
              obtain ⟨⟨b, _, hb, -⟩, -⟩ := storeInt_sem gw h7
              rw [hnow] at hb; cases hb
        · rw [if_neg ht]
          rw [Trace.account, if_neg ht] at c1
          refine ⟨r, ?_, fun k => ?_⟩
          · rw [c1]; rfl
          · rw [c2]; rfl
    | some s =>
      obtain ⟨r0, e1, e2⟩ := hA.get_some hAx
      rw [ho] at e1
      cases e1
      rw [if_pos (.inr (by simp))] at hc
      obtain ⟨⟨r, c1⟩, c2⟩ := hc
      simp only [Option.isNone_some, Bool.false_eq_true, false_and, if_false, Option.getD_some]
      refine ⟨r, ?_, fun k => ?_⟩
      · rw [c1]
        unfold Trace.account
        split
        · rename_i ht
          rw [ht.1, ht.2.1, ht.2.2]; rfl
        · rfl
      · rw [c2]
        unfold writeAll
        cases lastWrite env.keccak t.storageWritten k with
        | some v => rfl
        | none => simp only; rw [if_neg (by simp)]; exact e2 k

theorem applyTraces_rep {rc : Bytes} {l : List (Addr × Trace)} {st st' : World1 × Hash2Code}
    {loc loc' : Loc Key} {A : AState} (hg : Good env.keccak st.1) (hk : Keyed env.keccak st.2)
    (hA : Rep st.1 A) (h : applyTraces (type1 env.keccak ss) env rc l st loc = .ok (st', loc')) :
    Good env.keccak st'.1 ∧ Keyed env.keccak st'.2 ∧
      Rep st'.1 (specTraces env.keccak ((env.mapReceipt rc >>= env.status) matches .ok true) l A) := by
  induction l generalizing st loc A with
  | nil => cases h; exact ⟨hg, hk, hA⟩
  | cons x l ih =>
    obtain ⟨a, t⟩ := x
    unfold applyTraces at h
    obtain ⟨⟨st1, loc1⟩, h1, h⟩ := bind_ok.1 h
    obtain ⟨g1, k1, r1⟩ := applyTrace_rep hg hk hA h1
    exact ih g1 k1 r1 h

theorem applyTxns_rep {l : List (Option Txn)} {st st' : St World1} {loc loc' : Loc Key} {A : AState}
    (hg : Good env.keccak st.world) (hk : Keyed env.keccak st.code) (hA : Rep st.world A)
    (h : applyTxns (type1 env.keccak ss) env l st loc = .ok (st', loc')) :
    Good env.keccak st'.world ∧ Keyed env.keccak st'.code ∧
      Rep st'.world (specTxns env (l.filterMap id) A) := by
  induction l generalizing st loc A with
  | nil => cases h; exact ⟨hg, hk, hA⟩
  | cons t l ih =>
    unfold applyTxns at h
    obtain ⟨⟨st1, loc1⟩, h1, h⟩ := bind_ok.1 h
    unfold applyTxn at h1
    obtain ⟨⟨tt, rt, bc⟩, -, h1⟩ := bind_ok.1 h1
    obtain ⟨⟨⟨w, code⟩, loc2⟩, h2, h1⟩ := bind_ok.1 h1
    cases h1
    obtain ⟨g1, k1, r1⟩ := applyTraces_rep hg hk hA h2
    cases t with
    | none => exact ih g1 k1 r1 h
    | some t => exact ih g1 k1 r1 h

theorem applyWithdrawals_rep {l : List (Addr × U256)} {w w' : World1} {A : AState}
    (hw : Fixed 64 w.state) (hA : Rep w A)
    (h : applyWithdrawals (type1 env.keccak ss) l w = .ok w') :
    Fixed 64 w'.state ∧ Rep w' (specWithdrawals env.keccak l A) := by
  induction l generalizing w A with
  | nil => cases h; exact ⟨hw, hA⟩
  | cons x l ih =>
    obtain ⟨a, amt⟩ := x
    unfold applyWithdrawals at h
    obtain ⟨w1, h1, h⟩ := bind_ok.1 h
    obtain ⟨old, b, e1, e2, e3, e4, e5⟩ := onAcct_ok
      (f := fun a => do return { a with balance := ← addBalance amt a.balance }) hw h1
    obtain ⟨x, hx, e2⟩ := bind_ok.1 e2
    cases e2
    have hxe : x = (old.getD (Acct.default env.keccak)).balance + amt := by
      unfold addBalance at hx
      split at hx
      · cases hx; rfl
      · cases hx
    refine ih e4 (hA.set (x := env.keccak a)
      (fun y hy => ⟨by rw [e5, if_neg hy], by rw [e3]⟩) ?_) h
    have hsl : ∀ k, slotVal w1 (env.keccak a) k = slotVal w (env.keccak a) k := by
      intro k; unfold slotVal; rw [e3]
    cases hAx : A (env.keccak a) with
    | none =>
      obtain ⟨f1, f2⟩ := hA.get_none hAx
      rw [e1] at f1
      cases f1
      refine ⟨Mpt.rootHash env.keccak .empty, ?_, fun k => by rw [hsl]; exact f2 k⟩
      rw [e5, if_pos rfl, hxe]
      try rfl
    | some s =>
      obtain ⟨r, f1, f2⟩ := hA.get_some hAx
      rw [e1] at f1
      cases f1
      refine ⟨r, ?_, fun k => by rw [hsl]; exact f2 k⟩
      rw [e5, if_pos rfl, hxe]
      try rfl

/-- A batch list is run; `A` is the state after the hook of the first batch. -/
theorem runBatches_rep {pre : Hook World1 Key} {n : Nat} {bs : List (List (Option Txn))}
    {st st2 : St World1} {out : List (Batch World1)} {A : AState}
    (h : runBatches (type1 env.keccak ss) env pre n bs st = .ok (st2, out))
    (hk : Keyed env.keccak st.code)
    (h0 : ∀ w0 sm pm, runHook pre st.txnIx st.world = .ok (w0, sm, pm) →
      Good env.keccak w0 ∧ Rep w0 A)
    (hp : (∀ w, pre w = .ok (w, [], [])) ∨ st.txnIx ≠ 0 ∨ ∃ t l bs', bs = (some t :: l) :: bs')
    (hbs : bs ≠ []) (hne : ∀ b ∈ bs, b ≠ []) (hn : n = st.loopIx + bs.flatten.length) :
    Rep st2.world (specWithdrawals env.keccak st.withdrawals
      (specTxns env (bs.flatten.filterMap id) A)) ∧
    ∃ o, out.getLast? = some o ∧ o.stateRoot = Mpt.rootHash env.keccak st2.world.state := by
  induction bs generalizing st out A with
  | nil => exact absurd rfl hbs
  | cons b bs ih =>
    obtain ⟨st1, o, os, rfl, h1, h2⟩ := runBatches_cons h
    obtain ⟨r⟩ := runBatch_inv h1
    obtain ⟨a1, a2, a3, a4, a5⟩ := applyTxns_inv r.txns
    simp only at a1 a2 a3
    obtain ⟨hg, hA⟩ := h0 _ _ _ r.hook
    obtain ⟨g1, k1, r1⟩ := applyTxns_rep (st := { st with world := r.w0 }) hg hk hA r.txns
    have hfl : (b :: bs).flatten.filterMap id = b.filterMap id ++ bs.flatten.filterMap id := by
      simp [List.flatten_cons, List.filterMap_append]
    have hsp : specTxns env ((b :: bs).flatten.filterMap id) A =
        specTxns env (bs.flatten.filterMap id) (specTxns env (b.filterMap id) A) := by
      rw [hfl]; unfold specTxns; rw [List.foldl_append]
    rw [hsp]
    have hwd := r.wds
    by_cases hb : bs = []
    · subst hb
      cases h2
      rw [if_pos (by simp at hn; omega), a3] at hwd
      obtain ⟨-, r2⟩ := applyWithdrawals_rep g1.state r1 hwd
      refine ⟨?_, o, rfl, ?_⟩
      · have := congrArg St.world r.st2_eq
        rw [this]; exact r2
      · have := congrArg St.world r.st2_eq
        rw [r.o_root, this]; rfl
    · have hpos : 0 < bs.flatten.length := by
        cases bs with
        | nil => exact absurd rfl hb
        | cons c cs =>
          have := List.length_pos_iff.2 (hne c (by simp))
          simp; omega
      have hlast : ¬ r.st'.loopIx = n := by simp at hn; simp at hpos; omega
      rw [if_neg hlast] at hwd
      have hw' : r.w' = r.st'.world := (Except.ok.inj hwd).symm
      have hs1 : st1.loopIx = st.loopIx + b.length := by rw [congrArg St.loopIx r.st2_eq]; exact a2
      have hwd1 : st1.withdrawals = st.withdrawals := by
        rw [congrArg St.withdrawals r.st2_eq]; simp only [if_neg hlast]; exact a3
      have hst1 : st1.world = r.st'.world := by rw [congrArg St.world r.st2_eq]; exact hw'
      have hix : st1.txnIx = st.txnIx + (b.filterMap id).length := by
        rw [congrArg St.txnIx r.st2_eq]; exact a1
      have hp1 : (∀ w, pre w = .ok (w, [], [])) ∨ st1.txnIx ≠ 0 := by
        rcases hp with hp | hp | ⟨t, l, bs', hp⟩
        · exact .inl hp
        · exact .inr (by omega)
        · cases hp
          exact .inr (by rw [hix]; simp)
      obtain ⟨c1, z, c2, c3⟩ := ih h2 (A := specTxns env (b.filterMap id) A)
        (by rw [congrArg St.code r.st2_eq]; exact k1) (fun w0 sm pm hh => by
          have hw0 : w0 = r.st'.world := by
            unfold runHook at hh
            rcases hp1 with hp1 | hp1
            · split at hh
              · rw [hp1] at hh; rw [← hst1]; exact ((Prod.mk.inj (Except.ok.inj hh)).1).symm
              · rw [← hst1]; exact ((Prod.mk.inj (Except.ok.inj hh)).1).symm
            · rw [if_neg hp1] at hh
              rw [← hst1]; exact ((Prod.mk.inj (Except.ok.inj hh)).1).symm
          rw [hw0]; exact ⟨g1, r1⟩)
        (hp1.elim .inl (fun h => .inr (.inl h))) hb
        (fun b hb => hne b (by simp [hb])) (by rw [hs1, hn]; simp; omega)
      rw [hwd1] at c1
      have hos : os ≠ [] := by intro h0; rw [h0] at c2; simp at c2
      refine ⟨c1, z, ?_, c3⟩
      obtain ⟨y, ys, rfl⟩ := List.exists_cons_of_ne_nil hos
      rw [List.getLast?_cons_cons]; exact c2

/-- The first batch of a block with transactions starts with a transaction. -/
theorem batch_first {txns : List Txn} (h : txns ≠ []) (hint : Nat) :
    ∃ t l bs, batch txns hint = (some t :: l) :: bs := by
  obtain ⟨t, ts, rfl⟩ := List.exists_cons_of_ne_nil h
  obtain ⟨b1, b2, b3, -⟩ := C23_batches (t :: ts) hint
  cases hb : batch (t :: ts) hint with
  | nil => rw [hb] at b2; simp at b2
  | cons b bs =>
    rw [hb] at b1 b3
    obtain ⟨x, l, hx⟩ := List.exists_cons_of_ne_nil (b3 b (by simp)).1
    subst hx
    simp at b1
    exact ⟨t, l, bs, by rw [b1.1]⟩

theorem entrypoint_rep {chain : Chain} {blk : Block} {ger : Option (H256 × H256)} {world : World1}
    {codes db : List Bytes} {txns : List Txn} {hint : Nat} {wds : List (Addr × U256)}
    {is : List (GenInput World1)} {A : AState}
    (h0 : ∀ w0 sm pm, preExecution (type1 env.keccak ss) env chain blk ger world = .ok (w0, sm, pm) →
      Good env.keccak w0 ∧ Rep w0 A)
    (hp : chain = .polygonPos ∨ txns ≠ [])
    (h : entrypoint (type1 env.keccak ss) env chain blk ger world
      (Hash2Code.fromIter env.keccak codes) db txns hint wds = .ok is) :
    ∃ z w ws, is.getLast? = some z ∧ weiAll wds = .ok ws ∧
      z.stateRootAfter = Mpt.rootHash env.keccak w.state ∧
      Rep w (specWithdrawals env.keccak ws (specTxns env txns A)) := by
  obtain ⟨-, ws, st2, out, h1, h2, rfl⟩ := entrypoint_inv h
  obtain ⟨-, b2, b3, -⟩ := C23_batches txns hint
  obtain ⟨c1, o, c2, c3⟩ := runBatches_rep (A := A) h2
    (((Keyed.new env.keccak).extend codes).extend db) (fun w0 sm pm hh => h0 w0 sm pm hh)
    (hp.elim (fun h => .inl (by subst h; exact fun w => rfl)) (fun h => .inr (.inr (batch_first h hint))))
    (fun h0 => by rw [h0] at b2; simp at b2) (fun b hb => (b3 b hb).1) (by simp)
  rw [batch_flatten_filterMap] at c1
  have hmap : ∀ g (out : List (Batch World1)),
      (toInputs (type1 env.keccak ss) g out).map (·.stateRootAfter) = out.map (·.stateRoot) := by
    intro g out
    induction out generalizing g with
    | nil => rfl
    | cons b bs ih => simp [toInputs, ih]
  have hl : ((toInputs (type1 env.keccak ss) 0 out).getLast?).map (·.stateRootAfter) = some o.stateRoot := by
    rw [← List.getLast?_map, hmap, List.getLast?_map, c2]; rfl
  obtain ⟨z, hz, hzr⟩ := Option.map_eq_some_iff.1 hl
  exact ⟨z, st2.world, ws, hz, h1, by rw [hzr, c3], c1⟩

/-- **C54**, a block (on a network without a pre-execution hook). For every block, every batching and
every linked initial state, the state root the last proof input ends with is the root of a state trie
that represents exactly: the initial accounts, changed by the traces of the transactions in order, and
then credited with the withdrawals. In particular the accounts do not depend on the batching. -/
theorem C54_block {blk : Block} {ger : Option (H256 × H256)} {world : World1} {codes db : List Bytes}
    {txns : List Txn} {hint : Nat} {wds : List (Addr × U256)} {is : List (GenInput World1)} {A : AState}
    (hg : Good env.keccak world) (hA : Rep world A)
    (h : entrypoint (type1 env.keccak ss) env .polygonPos blk ger world
      (Hash2Code.fromIter env.keccak codes) db txns hint wds = .ok is) :
    ∃ z w ws, is.getLast? = some z ∧ weiAll wds = .ok ws ∧
      z.stateRootAfter = Mpt.rootHash env.keccak w.state ∧
      Rep w (specWithdrawals env.keccak ws (specTxns env txns A)) :=
  entrypoint_rep (fun w0 sm pm hh => by cases hh; exact ⟨hg, hA⟩) (.inl rfl) h

/-! ## C53: the beacon roots contract -/

/-- EIP-4788: with `HISTORY_BUFFER_LENGTH = 8191`, slot `timestamp % 8191` holds the timestamp and
slot `timestamp % 8191 + 8191` the parent beacon block root; a slot set to zero is removed. -/
def eip4788 (keccak : Bytes → H256) (b : Block) (A : AState) : AState :=
  A.set (keccak beaconAddr) ((A (keccak beaconAddr)).map (fun a =>
    let i := b.timestamp.toNat % 8191
    let s1 : Key → Option Bytes := fun k =>
      if k = keyOfSlot keccak i then slotEnc b.timestamp else a.slots k
    { a with slots := fun k =>
        if k = keyOfSlot keccak (i + 8191) then slotEnc (uint b.parentBeaconBlockRoot) else s1 k }))

theorem beaconStore_sem {w w' : World1} {m m' : Masks} {ix u : U256} (hg : Good env.keccak w)
    (h : beaconStore (type1 env.keccak ss) env w m ix u = .ok (w', m')) :
    (∃ b r, stateGet w.state (env.keccak beaconAddr) = .ok (some b) ∧
      stateGet w'.state (env.keccak beaconAddr) = .ok (some { b with storageRoot := r })) ∧
      Frame (env.keccak beaconAddr) w w' ∧
      ∀ k', slotVal w' (env.keccak beaconAddr) k' = if k' = keyOfSlot env.keccak ix.toNat
        then slotEnc u else slotVal w (env.keccak beaconAddr) k' := by
  unfold beaconStore at h
  dsimp only at h
  split at h
  · rename_i hu
    obtain ⟨⟨w1, r⟩, h1, h⟩ := bind_ok.1 h
    cases h
    rw [slotEnc, if_pos hu]
    exact destroySlot_sem hg h1
  · rename_i hu
    obtain ⟨w1, h1, h⟩ := bind_ok.1 h
    cases h
    rw [slotEnc, if_neg hu]
    exact storeInt_sem hg h1

/-- The timestamp index as a number. -/
theorem mod8191 (t : U256) : (t % 8191).toNat = t.toNat % 8191 := by
  rw [BitVec.toNat_umod]; rfl

/-- The root index as a number. -/
theorem mod8191_add (t : U256) : (t % 8191 + 8191).toNat = t.toNat % 8191 + 8191 := by
  rw [BitVec.toNat_add, mod8191]
  have : t.toNat % 8191 < 8191 := Nat.mod_lt _ (by decide)
  have h2 : (8191 : BitVec 256).toNat = 8191 := rfl
  rw [h2, Nat.mod_eq_of_lt (by omega)]

/-- **C53**, Ethereum. For every block and every linked state, if the hook run before the first
transaction succeeds then the contract existed and its state afterwards is the one EIP-4788 prescribes,
and no other account changed. -/
theorem C53_beacon_roots {b : Block} {w w' : World1} {m : Masks} {p : List Key} {A : AState}
    (hg : Good env.keccak w) (hA : Rep w A)
    (h : beaconHook (type1 env.keccak ss) env b w = .ok (w', m, p)) :
    Good env.keccak w' ∧ A (env.keccak beaconAddr) ≠ none ∧ Rep w' (eip4788 env.keccak b A) := by
  have hgood := beaconHook_good hg h
  unfold beaconHook at h
  obtain ⟨⟨w1, m1⟩, h1, h⟩ := bind_ok.1 h
  obtain ⟨⟨w2, m2⟩, h2, h⟩ := bind_ok.1 h
  cases h
  have g1 := beaconStore_good hg h1
  obtain ⟨⟨b1, r1, e1, e2⟩, f1, s1⟩ := beaconStore_sem hg h1
  obtain ⟨⟨b2, r2, e3, e4⟩, f2, s2⟩ := beaconStore_sem g1 h2
  rw [e2] at e3
  cases e3
  rw [mod8191] at s1
  rw [mod8191_add] at s2
  cases hAx : A (env.keccak beaconAddr) with
  | none =>
    have := (hA.get_none hAx).1
    rw [e1] at this; cases this
  | some s =>
    obtain ⟨r, e5, e6⟩ := hA.get_some hAx
    rw [e1] at e5
    cases e5
    refine ⟨hgood, by simp, hA.set (f1.trans f2) ?_⟩
    rw [hAx]
    refine ⟨r2, e4, fun k => ?_⟩
    rw [s2, s1, e6]

/-- **C54**, a block with transactions on Ethereum: as `C54_block`, after the beacon roots update. -/
theorem C54_block_ethereum {blk : Block} {ger : Option (H256 × H256)} {world : World1}
    {codes db : List Bytes} {txns : List Txn} {hint : Nat} {wds : List (Addr × U256)}
    {is : List (GenInput World1)} {A : AState}
    (hg : Good env.keccak world) (hA : Rep world A) (hne : txns ≠ [])
    (h : entrypoint (type1 env.keccak ss) env .ethMainnet blk ger world
      (Hash2Code.fromIter env.keccak codes) db txns hint wds = .ok is) :
    ∃ z w ws, is.getLast? = some z ∧ weiAll wds = .ok ws ∧
      z.stateRootAfter = Mpt.rootHash env.keccak w.state ∧
      Rep w (specWithdrawals env.keccak ws (specTxns env txns (eip4788 env.keccak blk A))) :=
  entrypoint_rep (fun _ _ _ hh => by
    obtain ⟨a, -, b⟩ := C53_beacon_roots hg hA hh
    exact ⟨a, b⟩) (.inr hne) h

end

/-! ## Examples -/

/-- The empty world represents the empty state. -/
theorem rep_empty : Good toyHash ⟨.empty, fun _ => none⟩ ∧ Rep ⟨.empty, fun _ => none⟩ (fun _ => none) := by
  refine ⟨⟨Fixed.empty 64, (by intro h t ht; cases ht), (by intro h a t _ ht; cases ht)⟩, fun h => ⟨?_, fun k => rfl⟩⟩
  rfl

/-- Non-vacuity of C54: the block of two transactions that create an account and write two slots, and
a withdrawal to another account. -/
example : (match entrypoint (type1 toyHash .collapseToExtension) toyEnv1 .polygonPos ⟨1, 1, toyHash []⟩ none
      ⟨.empty, fun _ => none⟩ (Hash2Code.fromIter toyHash []) [] toyTraces 1 [([2], 3)] with
    | .ok _ => true
    | .error _ => false) = true := by
  have : batch toyTraces 1 = [[some { byteCode := [1], receipt := [9], traces :=
      [([1], { balance := some 5, storageWritten := [(toyHash [3], 7)] })] }],
    [some { byteCode := [2], receipt := [9], traces :=
      [([1], { storageWritten := [(toyHash [4], 8)] })] }]] := by
    simp [batch, chunks, toyTraces]
  unfold entrypoint
  rw [this]
  decide +kernel

/-- What the specification says about it: the account has balance 5 and slot 4 holds 8. -/
example : ((specTxns toyEnv1 toyTraces (fun _ => none)) (toyHash [1])).map
      (fun a => (a.balance, a.slots (slotKey toyHash (toyHash [4])))) = some (5, some [8]) := by
  decide +kernel

/-- Non-vacuity of C53: a world with the contract (created by an update of its balance), where the
hook succeeds. -/
example : (match (do
      let w ← (type1 toyHash .collapseToExtension).createStorage ⟨.empty, fun _ => none⟩ beaconAddr
      let w ← (type1 toyHash .collapseToExtension).updateBalance w beaconAddr (fun _ => .ok 1)
      beaconHook (type1 toyHash .collapseToExtension) toyEnv1 ⟨1, 9000, toyHash [7]⟩ w) with
    | .ok (w, _, _) => decide (slotVal w (toyHash beaconAddr) (keyOfSlot toyHash 809) = some (encodeInt 9000))
    | .error _ => false) = true := by
  decide +kernel

end Verif.Decoder
