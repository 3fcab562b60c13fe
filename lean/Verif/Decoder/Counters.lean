import Verif.Decoder.Batch
/-!
# C24, C25, C51: counters, withdrawals and the pre-execution hook

Everything here holds for every world (`Ops`), so for both state representations.
-/
namespace Verif.Decoder
open Mpt (Key Bytes Node H256)
open World

section
variable {W P : Type} {I : Ops W P} {env : Env}

/-! ## Inversion of the loops -/

theorem applyTrace_loc {rc : Bytes} {a : Addr} {t : Trace} {st : W × Hash2Code} {loc : Loc P}
    {st' : W × Hash2Code} {loc' : Loc P} (h : applyTrace I env rc a t st loc = .ok (st', loc')) :
    loc'.gas = loc.gas ∧ loc'.byteCode = loc.byteCode := by
  unfold applyTrace at h
  obtain ⟨m, -, h⟩ := bind_ok.1 h
  obtain ⟨status, -, h⟩ := bind_ok.1 h
  obtain ⟨⟨w, born⟩, -, h⟩ := bind_ok.1 h
  obtain ⟨⟨w1, code, cc, ks⟩, -, h⟩ := bind_ok.1 h
  obtain ⟨⟨w2, p⟩, -, h⟩ := bind_ok.1 h
  cases h
  exact ⟨rfl, rfl⟩

theorem applyTraces_loc {rc : Bytes} {l : List (Addr × Trace)} {st : W × Hash2Code} {loc : Loc P}
    {st' : W × Hash2Code} {loc' : Loc P} (h : applyTraces I env rc l st loc = .ok (st', loc')) :
    loc'.gas = loc.gas ∧ loc'.byteCode = loc.byteCode := by
  induction l generalizing st loc with
  | nil => cases h; exact ⟨rfl, rfl⟩
  | cons x l ih =>
    obtain ⟨a, t⟩ := x
    unfold applyTraces at h
    obtain ⟨⟨st1, loc1⟩, h1, h⟩ := bind_ok.1 h
    have := applyTrace_loc h1
    rw [← this.1, ← this.2]
    exact ih h

/-- Encoded transactions of a batch: the non-empty ones, in order. -/
def signed (b : List (Option Txn)) : List Bytes :=
  (b.filterMap id).filterMap (fun t => if t.byteCode = [] then none else some t.byteCode)

/-- Gas of a batch. -/
def gasOf (b : List (Option Txn)) : Nat := ((b.filterMap id).map (·.gasUsed)).sum

theorem applyTxn_inv {t : Option Txn} {st st' : St W} {loc loc' : Loc P}
    (h : applyTxn I env t st loc = .ok (st', loc')) :
    st'.txnIx = st.txnIx + ([t].filterMap id).length ∧ st'.loopIx = st.loopIx + 1 ∧
      st'.withdrawals = st.withdrawals ∧ loc'.gas = loc.gas + gasOf [t] ∧
      loc'.byteCode = loc.byteCode ++ signed [t] := by
  unfold applyTxn at h
  obtain ⟨⟨tt, rt, bc⟩, h1, h⟩ := bind_ok.1 h
  obtain ⟨⟨⟨w, code⟩, loc1⟩, h2, h⟩ := bind_ok.1 h
  have h3 := applyTraces_loc h2
  cases h
  refine ⟨?_, rfl, rfl, ?_, ?_⟩
  · cases t <;> simp
  · rw [h3.1]; cases t <;> simp [gasOf]
  · rw [h3.2]
    cases t with
    | none => cases h1; simp [signed]
    | some t =>
      simp only [Option.getD_some, record] at h1
      by_cases hb : t.byteCode = []
      · rw [if_pos hb] at h1; cases h1; simp [signed, hb]
      · rw [if_neg hb] at h1
        obtain ⟨⟨t1, _⟩, -, h1⟩ := bind_ok.1 h1
        obtain ⟨_, -, h1⟩ := bind_ok.1 h1
        obtain ⟨⟨t2, _⟩, -, h1⟩ := bind_ok.1 h1
        cases h1
        simp [signed, hb]

theorem gasOf_cons (t : Option Txn) (l : List (Option Txn)) : gasOf (t :: l) = gasOf [t] + gasOf l := by
  cases t <;> simp [gasOf]

theorem signed_cons (t : Option Txn) (l : List (Option Txn)) : signed (t :: l) = signed [t] ++ signed l := by
  cases t with
  | none => simp [signed]
  | some t => by_cases h : t.byteCode = [] <;> simp [signed, h]

theorem real_cons (t : Option Txn) (l : List (Option Txn)) :
    ((t :: l).filterMap id).length = ([t].filterMap id).length + (l.filterMap id).length := by
  cases t <;> simp; omega

theorem applyTxns_inv {l : List (Option Txn)} {st st' : St W} {loc loc' : Loc P}
    (h : applyTxns I env l st loc = .ok (st', loc')) :
    st'.txnIx = st.txnIx + (l.filterMap id).length ∧ st'.loopIx = st.loopIx + l.length ∧
      st'.withdrawals = st.withdrawals ∧ loc'.gas = loc.gas + gasOf l ∧
      loc'.byteCode = loc.byteCode ++ signed l := by
  induction l generalizing st loc with
  | nil => cases h; simp [gasOf, signed]
  | cons t l ih =>
    unfold applyTxns at h
    obtain ⟨⟨st1, loc1⟩, h1, h⟩ := bind_ok.1 h
    obtain ⟨a1, a2, a3, a4, a5⟩ := applyTxn_inv h1
    obtain ⟨b1, b2, b3, b4, b5⟩ := ih h
    rw [real_cons, gasOf_cons, signed_cons]
    refine ⟨by omega, by simp; omega, b3.trans a3, by omega, ?_⟩
    rw [b5, a5, List.append_assoc]

/-- What one batch does, split into its steps. -/
structure BatchRun (I : Ops W P) (env : Env) (pre : Hook W P) (loopLen : Nat) (b : List (Option Txn))
    (st st2 : St W) (o : Batch W) where
  w0 : W
  sm : Masks
  pm : List P
  st' : St W
  loc : Loc P
  w' : W
  bw : W
  hook : runHook pre st.txnIx st.world = .ok (w0, sm, pm)
  txns : applyTxns I env b { st with world := w0 } { smasks := sm, pmask := pm } = .ok (st', loc)
  wds : applyWithdrawals I (if st'.loopIx = loopLen then st'.withdrawals else []) st'.world = .ok w'
  mask : I.mask st.world (loc.pmask ++
    (if st'.loopIx = loopLen then st'.withdrawals else []).map (fun a => I.pathOf a.1)) = .ok bw
  mstor : I.maskStorage bw loc.smasks = .ok o.world
  mtxn : maskTxns env st.txnTrie st.txnIx st'.txnIx = .ok o.txnTrie
  mrct : maskTxns env st.rctTrie st.txnIx st'.txnIx = .ok o.rctTrie
  st2_eq : st2 = { st' with
    world := w', withdrawals := if st'.loopIx = loopLen then [] else st'.withdrawals }
  o_ix : o.firstTxnIx = st.txnIx
  o_gas : o.gasUsed = loc.gas
  o_code : o.contractCode = loc.contractCode
  o_bytes : o.byteCode = loc.byteCode
  o_root : o.stateRoot = I.root w'
  o_troot : o.txnRoot = Mpt.rootHash env.keccak st'.txnTrie
  o_rroot : o.rctRoot = Mpt.rootHash env.keccak st'.rctTrie
  o_wds : o.withdrawals = if st'.loopIx = loopLen then st'.withdrawals else []

theorem runBatch_inv {pre : Hook W P} {n : Nat} {b : List (Option Txn)} {st st2 : St W} {o : Batch W}
    (h : runBatch I env pre n b st = .ok (st2, o)) : Nonempty (BatchRun I env pre n b st st2 o) := by
  unfold runBatch at h
  obtain ⟨⟨w0, sm, pm⟩, h1, h⟩ := bind_ok.1 h
  obtain ⟨⟨st', loc⟩, h2, h⟩ := bind_ok.1 h
  simp only [decide_eq_true_eq] at h
  obtain ⟨w', h3, h⟩ := bind_ok.1 h
  obtain ⟨bw, h4, h⟩ := bind_ok.1 h
  obtain ⟨br, h5, h⟩ := bind_ok.1 h
  obtain ⟨bt, h6, h⟩ := bind_ok.1 h
  obtain ⟨bw', h7, h⟩ := bind_ok.1 h
  cases h
  exact ⟨⟨w0, sm, pm, st', loc, w', bw, h1, h2, h3, h4, h7, h6, h5, rfl, rfl, rfl, rfl, rfl, rfl, rfl,
    rfl, rfl⟩⟩

theorem runBatches_cons {pre : Hook W P} {n : Nat} {b : List (Option Txn)}
    {bs : List (List (Option Txn))} {st st2 : St W} {out : List (Batch W)}
    (h : runBatches I env pre n (b :: bs) st = .ok (st2, out)) :
    ∃ st1 o os, out = o :: os ∧ runBatch I env pre n b st = .ok (st1, o) ∧
      runBatches I env pre n bs st1 = .ok (st2, os) := by
  unfold runBatches at h
  obtain ⟨⟨st1, o⟩, h1, h⟩ := bind_ok.1 h
  obtain ⟨⟨st3, os⟩, h2, h⟩ := bind_ok.1 h
  cases h
  exact ⟨st1, o, os, rfl, h1, h2⟩

/-! ## C24 -/

/-- The counters of a list of inputs produced for a list of batches, starting from transaction number
`n` and gas `g`. -/
inductive Counted : Nat → Nat → List (List (Option Txn)) → List (GenInput W) → Prop where
  | nil (n g) : Counted n g [] []
  | cons {n g b bs i is} (h1 : i.txnNumberBefore = n) (h2 : i.gasUsedBefore = g)
      (h3 : i.gasUsedAfter = g + gasOf b) (h4 : i.signedTxns = signed b)
      (h : Counted (n + (b.filterMap id).length) (g + gasOf b) bs is) : Counted n g (b :: bs) (i :: is)

theorem runBatches_counted {pre : Hook W P} {n : Nat} {bs : List (List (Option Txn))} {st st2 : St W}
    {out : List (Batch W)} (h : runBatches I env pre n bs st = .ok (st2, out)) (g : Nat) :
    Counted st.txnIx g bs (toInputs I g out) := by
  induction bs generalizing st out g with
  | nil => cases h; exact .nil _ _
  | cons b bs ih =>
    obtain ⟨st1, o, os, rfl, h1, h2⟩ := runBatches_cons h
    obtain ⟨r⟩ := runBatch_inv h1
    obtain ⟨a1, a2, a3, a4, a5⟩ := applyTxns_inv r.txns
    have hg : o.gasUsed = gasOf b := by rw [r.o_gas, a4]; simp
    have hst : st1.txnIx = st.txnIx + (b.filterMap id).length := by rw [r.st2_eq]; exact a1
    refine .cons r.o_ix rfl ?_ ?_ ?_
    · simp [hg]
    · show o.byteCode = signed b
      rw [r.o_bytes, a5]; simp
    · rw [← hst, ← hg]; exact ih h2 _

theorem Counted.length {n g : Nat} {bs : List (List (Option Txn))} {is : List (GenInput W)}
    (h : Counted n g bs is) : is.length = bs.length := by
  induction h with
  | nil => rfl
  | cons _ _ _ _ _ ih => simp [ih]

theorem Counted.step {n g : Nat} {bs : List (List (Option Txn))} {is : List (GenInput W)}
    (h : Counted n g bs is) (j : Nat) (a b : GenInput W) (ha : is[j]? = some a)
    (hb : is[j + 1]? = some b) : b.gasUsedBefore = a.gasUsedAfter ∧
      ∃ ba, bs[j]? = some ba ∧ b.txnNumberBefore = a.txnNumberBefore + (ba.filterMap id).length ∧
        a.signedTxns = signed ba := by
  induction h generalizing j with
  | nil => simp at ha
  | @cons n g b0 bs i is h1 h2 h3 h4 h ih =>
    cases j with
    | zero =>
      simp only [List.getElem?_cons_zero, Option.some.injEq] at ha
      subst ha
      cases h with
      | nil => simp at hb
      | cons k1 k2 _ _ _ =>
        simp only [Nat.zero_add, List.getElem?_cons_succ, List.getElem?_cons_zero,
          Option.some.injEq] at hb
        subst hb
        refine ⟨?_, b0, rfl, ?_, h4⟩
        · rw [k2, h3]
        · rw [k1, h1]
    | succ j =>
      simp only [List.getElem?_cons_succ] at ha hb
      obtain ⟨c1, ba, c2, c3⟩ := ih j ha hb
      exact ⟨c1, ba, by simpa using c2, c3⟩

theorem Counted.last {n g : Nat} {bs : List (List (Option Txn))} {is : List (GenInput W)}
    (h : Counted n g bs is) (z : GenInput W) (hz : is.getLast? = some z) :
    z.gasUsedAfter = g + gasOf bs.flatten ∧
      ∃ bz, bs.getLast? = some bz ∧ z.signedTxns = signed bz ∧
      z.txnNumberBefore + (bz.filterMap id).length = n + (bs.flatten.filterMap id).length := by
  induction h with
  | nil => simp at hz
  | @cons n g b0 bs i is h1 h2 h3 h4 h ih =>
    have gapp : gasOf (b0 :: bs).flatten = gasOf b0 + gasOf bs.flatten := by simp [gasOf]
    have rapp : (((b0 :: bs).flatten).filterMap id).length =
        (b0.filterMap id).length + (bs.flatten.filterMap id).length := by
      simp [List.flatten_cons, List.filterMap_append]
    cases h with
    | nil =>
      simp at hz; subst hz
      exact ⟨by rw [h3]; simp, b0, rfl, h4, by rw [h1]; simp⟩
    | @cons _ _ b1 bs' i1 is' =>
      rw [List.getLast?_cons_cons] at hz
      obtain ⟨c1, bz, c2, c4, c3⟩ := ih hz
      rw [gapp, rapp]
      exact ⟨by omega, bz, by rw [List.getLast?_cons_cons]; exact c2, c4, by omega⟩

theorem Counted.signedTxns {n g : Nat} {bs : List (List (Option Txn))} {is : List (GenInput W)}
    (h : Counted n g bs is) : (is.map (·.signedTxns)).flatten = signed bs.flatten := by
  induction h with
  | nil => rfl
  | cons _ _ _ h4 _ ih =>
    rw [List.map_cons, List.flatten_cons, ih, h4]
    simp [signed, List.filterMap_append]

theorem entrypoint_inv {chain : Chain} {blk : Block} {ger : Option (H256 × H256)} {world : W}
    {code : Hash2Code} {db : List Bytes} {txns : List Txn} {hint : Nat}
    {wds : List (Addr × U256)} {is : List (GenInput W)}
    (h : entrypoint I env chain blk ger world code db txns hint wds = .ok is) :
    0 < hint ∧ ∃ ws st2 out, weiAll wds = .ok ws ∧
      runBatches I env (preExecution I env chain blk ger) (batch txns hint).flatten.length
        (batch txns hint) { world, code := code.extend I.codeHash db, withdrawals := ws }
          = .ok (st2, out) ∧ is = toInputs I 0 out := by
  unfold entrypoint at h
  split at h
  · cases h
  · rename_i hh
    obtain ⟨ws, h1, h⟩ := bind_ok.1 h
    obtain ⟨out, h2, h⟩ := bind_ok.1 h
    unfold middle at h2
    obtain ⟨⟨st2, out'⟩, h3, h2⟩ := bind_ok.1 h2
    cases h2
    cases h
    exact ⟨by omega, ws, st2, out, h1, h3, rfl⟩

theorem signed_all {txns : List Txn} (h : ∀ t ∈ txns, t.byteCode ≠ []) (l : List (Option Txn))
    (hl : ∀ t ∈ l.filterMap id, t ∈ txns) : signed l = (l.filterMap id).map (·.byteCode) := by
  unfold signed
  generalize l.filterMap id = r at hl
  induction r with
  | nil => rfl
  | cons a r ih =>
    have ha := h a (hl a (by simp))
    rw [List.filterMap_cons, if_neg ha, ih (fun t ht => hl t (by simp [ht]))]
    rfl

/-- **C24**. For every block whose transactions all carry an encoding, the proof inputs form a chain:
the first starts at transaction 0 and gas 0; each starts where the previous one ended, both in gas and
in transaction number; the last one ends at the number of transactions and at the total gas of the
block; and the encoded transactions, concatenated over the inputs, are those of the block, in order. -/
theorem C24_counters {chain : Chain} {blk : Block} {ger : Option (H256 × H256)} {world : W}
    {code : Hash2Code} {db : List Bytes} {txns : List Txn} {hint : Nat}
    {wds : List (Addr × U256)} {is : List (GenInput W)}
    (h : entrypoint I env chain blk ger world code db txns hint wds = .ok is)
    (hne : ∀ t ∈ txns, t.byteCode ≠ []) :
    (∃ a z, is.head? = some a ∧ is.getLast? = some z ∧
      a.txnNumberBefore = 0 ∧ a.gasUsedBefore = 0 ∧
      z.txnNumberBefore + z.signedTxns.length = txns.length ∧
      z.gasUsedAfter = (txns.map (·.gasUsed)).sum) ∧
    (∀ j a b, is[j]? = some a → is[j + 1]? = some b →
      b.gasUsedBefore = a.gasUsedAfter ∧
      b.txnNumberBefore = a.txnNumberBefore + a.signedTxns.length) ∧
    (is.map (·.signedTxns)).flatten = txns.map (·.byteCode) := by
  obtain ⟨-, ws, st2, out, -, h2, rfl⟩ := entrypoint_inv h
  have hc := runBatches_counted h2 0
  have hflat := batch_flatten_filterMap txns hint
  have hsg : ∀ b ∈ batch txns hint, (signed b).length = (b.filterMap id).length := by
    intro b hb
    rw [signed_all hne b, List.length_map]
    intro t ht
    rw [← hflat]
    simp only [List.mem_filterMap, id] at ht ⊢
    obtain ⟨x, hx, rfl⟩ := ht
    exact ⟨_, List.mem_flatten.2 ⟨b, hb, hx⟩, rfl⟩
  have h2b := (C23_batches txns hint).2.1
  have hlen := hc.length
  refine ⟨?_, ?_, ?_⟩
  · have hne' : toInputs I 0 out ≠ [] := by
      intro h0; rw [h0] at hlen; simp at hlen; omega
    obtain ⟨z, hz⟩ : ∃ z, (toInputs I 0 out).getLast? = some z := by
      rw [List.getLast?_eq_some_getLast hne']; exact ⟨_, rfl⟩
    have hl := hc.last z hz
    obtain ⟨g1, bz, g2, g4, g3⟩ := hl
    cases hb : batch txns hint with
    | nil => rw [hb] at h2b; simp at h2b
    | cons b bs =>
      rw [hb] at hc
      cases hi : toInputs I 0 out with
      | nil => exact absurd hi hne'
      | cons a is' =>
        rw [hi] at hc hz
        cases hc with
        | cons k1 k2 _ _ _ =>
          refine ⟨a, z, rfl, hz, k1, k2, ?_, ?_⟩
          · rw [g4, hsg bz (List.mem_of_getLast? g2), g3, hflat]; simp
          · rw [g1]; unfold gasOf; rw [hflat]; simp
  · intro j a b ha hb
    obtain ⟨c1, ba, c2, c3, c4⟩ := hc.step j a b ha hb
    refine ⟨c1, ?_⟩
    rw [c3, c4, hsg ba (List.mem_of_getElem? c2)]
  · rw [hc.signedTxns, signed_all hne]
    · rw [hflat]
    · rw [hflat]; exact fun t ht => ht

/-! ## C25 -/

theorem runBatches_wds {pre : Hook W P} {n : Nat} {bs : List (List (Option Txn))} {st st2 : St W}
    {out : List (Batch W)} (h : runBatches I env pre n bs st = .ok (st2, out))
    (hne : ∀ b ∈ bs, b ≠ []) (hbs : bs ≠ []) (hn : n = st.loopIx + bs.flatten.length) :
    (∀ o ∈ out.dropLast, o.withdrawals = []) ∧
      ∃ o, out.getLast? = some o ∧ o.withdrawals = st.withdrawals := by
  induction bs generalizing st out with
  | nil => exact absurd rfl hbs
  | cons b bs ih =>
    obtain ⟨st1, o, os, rfl, h1, h2⟩ := runBatches_cons h
    obtain ⟨r⟩ := runBatch_inv h1
    obtain ⟨a1, a2, a3, a4, a5⟩ := applyTxns_inv r.txns
    simp only at a2 a3
    by_cases hb : bs = []
    · subst hb
      cases h2
      refine ⟨by simp, o, rfl, ?_⟩
      rw [r.o_wds, if_pos (by simp at hn; omega), a3]
    · have hpos : 0 < bs.flatten.length := by
        cases bs with
        | nil => exact absurd rfl hb
        | cons c cs =>
          have := List.length_pos_iff.2 (hne c (by simp))
          simp; omega
      have hlast : ¬ r.st'.loopIx = n := by simp at hn; simp at hpos; omega
      have hs1 : st1.loopIx = st.loopIx + b.length := by rw [r.st2_eq]; exact a2
      have hw1 : st1.withdrawals = st.withdrawals := by rw [r.st2_eq, if_neg hlast]; exact a3
      obtain ⟨c1, z, c2, c3⟩ := ih h2 (fun b hb => hne b (by simp [hb])) hb
        (by rw [hs1, hn]; simp; omega)
      have hos : os ≠ [] := by intro h0; rw [h0] at c2; simp at c2
      refine ⟨?_, z, ?_, by rw [c3, hw1]⟩
      · intro x hx
        rw [List.dropLast_cons_of_ne_nil hos] at hx
        rcases List.mem_cons.1 hx with rfl | hx
        · rw [r.o_wds, if_neg hlast]
        · exact c1 x hx
      · obtain ⟨y, ys, rfl⟩ := List.exists_cons_of_ne_nil hos
        rw [List.getLast?_cons_cons]; exact c2

theorem toInputs_wds (g : Nat) (out : List (Batch W)) :
    (toInputs I g out).map (·.withdrawals) = out.map (·.withdrawals) := by
  induction out generalizing g with
  | nil => rfl
  | cons b bs ih => simp [toInputs, ih]

theorem weiAll_spec {l ws : List (Addr × U256)} (h : weiAll l = .ok ws) :
    ws.map (fun x => (x.1, x.2.toNat)) = l.map (fun x => (x.1, x.2.toNat * 10 ^ 9)) := by
  induction l generalizing ws with
  | nil => cases h; rfl
  | cons x l ih =>
    obtain ⟨a, x⟩ := x
    unfold weiAll at h
    obtain ⟨y, h1, h⟩ := bind_ok.1 h
    obtain ⟨ys, h2, h⟩ := bind_ok.1 h
    cases h
    rw [List.map_cons, List.map_cons, ih h2]
    congr 1
    unfold toWei at h1
    split at h1
    · rename_i hlt
      cases h1
      simp only [Prod.mk.injEq, true_and]
      rw [show (10 : U256) ^ 9 = BitVec.ofNat 256 (10 ^ 9) by decide, BitVec.toNat_mul,
        BitVec.toNat_ofNat, Nat.mod_eq_of_lt (a := 10 ^ 9) (by decide), Nat.mod_eq_of_lt hlt]
    · cases h1

/-- **C25**. The withdrawals of a block appear exactly once in its proof inputs: no input but the last
carries any, the last carries all of them in order, with the amounts converted from gwei to wei, and
without overflow. -/
theorem C25_withdrawals_once {chain : Chain} {blk : Block} {ger : Option (H256 × H256)} {world : W}
    {code : Hash2Code} {db : List Bytes} {txns : List Txn} {hint : Nat}
    {wds : List (Addr × U256)} {is : List (GenInput W)}
    (h : entrypoint I env chain blk ger world code db txns hint wds = .ok is) :
    ∃ init z, is = init ++ [z] ∧ (∀ i ∈ init, i.withdrawals = []) ∧
      z.withdrawals.map (fun x => (x.1, x.2.toNat)) = wds.map (fun x => (x.1, x.2.toNat * 10 ^ 9)) := by
  obtain ⟨-, ws, st2, out, h1, h2, rfl⟩ := entrypoint_inv h
  obtain ⟨-, b2, b3, -⟩ := C23_batches txns hint
  obtain ⟨c1, o, c2, c3⟩ := runBatches_wds h2 (fun b hb => (b3 b hb).1)
    (fun h0 => by rw [h0] at b2; simp at b2) (by simp)
  have hm := toInputs_wds (I := I) 0 out
  generalize toInputs I 0 out = is at hm ⊢
  have hne : is ≠ [] := by
    intro h0
    rw [h0] at hm
    have : out = [] := List.map_eq_nil_iff.1 hm.symm
    rw [this] at c2; simp at c2
  have hsplit := List.dropLast_concat_getLast hne
  refine ⟨is.dropLast, is.getLast hne, hsplit.symm, ?_, ?_⟩
  · intro i hi
    have : i.withdrawals ∈ (is.map (·.withdrawals)).dropLast := by
      rw [← List.map_dropLast]; exact List.mem_map.2 ⟨i, hi, rfl⟩
    rw [hm, ← List.map_dropLast] at this
    obtain ⟨o', ho', he⟩ := List.mem_map.1 this
    rw [← he]; exact c1 o' ho'
  · have : (is.getLast hne).withdrawals = o.withdrawals := by
      have h3 : (is.map (·.withdrawals)).getLast? = (out.map (·.withdrawals)).getLast? := by rw [hm]
      rw [List.getLast?_map, List.getLast?_map, c2, List.getLast?_eq_some_getLast hne] at h3
      simpa using h3
    rw [this, c3]
    exact weiAll_spec h1

/-! ## C51: the pre-execution hook -/

/-- A world that also counts how often the pre-execution hook ran. -/
def counting (I : Ops W P) : Ops (W × Nat) P where
  contains w a := I.contains w.1 a
  updateBalance w a f := (I.updateBalance w.1 a f).map (·, w.2)
  updateNonce w a f := (I.updateNonce w.1 a f).map (·, w.2)
  setCode w a c := (I.setCode w.1 a c).map (·, w.2)
  reportingDestroy w a := (I.reportingDestroy w.1 a).map (fun r => ((r.1, w.2), r.2))
  createStorage w a := (I.createStorage w.1 a).map (·, w.2)
  destroyStorage w a := (I.destroyStorage w.1 a).map (·, w.2)
  storeInt w a s v := (I.storeInt w.1 a s v).map (·, w.2)
  storeHash w a s v := (I.storeHash w.1 a s v).map (·, w.2)
  loadInt w a s := I.loadInt w.1 a s
  reportingDestroySlot w a s := (I.reportingDestroySlot w.1 a s).map (fun r => ((r.1, w.2), r.2))
  maskStorage w m := (I.maskStorage w.1 m).map (·, w.2)
  mask w m := (I.mask w.1 m).map (·, w.2)
  root w := I.root w.1
  pathOf := I.pathOf
  codeHash := I.codeHash

/-- The hook, counted. -/
def countHook (pre : Hook W P) : Hook (W × Nat) P := fun w =>
  (pre w.1).map (fun r => ((r.1, w.2 + 1), r.2))

theorem map_pair_ok {ε α β} {x : Except ε α} {n : β} {w : α × β} (h : x.map (·, n) = .ok w) :
    w.2 = n := by
  cases x with
  | error => cases h
  | ok a => cases h; rfl

theorem map_pair_ok' {ε α β γ} {x : Except ε (α × γ)} {n : β} {w : (α × β) × γ}
    (h : x.map (fun r => ((r.1, n), r.2)) = .ok w) : w.1.2 = n := by
  cases x with
  | error => cases h
  | ok a => cases h; rfl

theorem bear_count {a : Addr} {w w' : W × Nat} {b : Bool}
    (h : bear (counting I) a w = .ok (w', b)) : w'.2 = w.2 := by
  unfold bear at h
  obtain ⟨c, -, h⟩ := bind_ok.1 h
  cases c with
  | true => cases h; rfl
  | false =>
    simp only [Bool.false_eq_true, if_false] at h
    obtain ⟨x, h1, h⟩ := bind_ok.1 h
    cases h
    exact map_pair_ok h1

theorem setBalance_count {a : Addr} {w w' : W × Nat} {v : Option U256}
    (h : setBalance (counting I) a w v = .ok w') : w'.2 = w.2 := by
  cases v with
  | none => cases h; rfl
  | some v => exact map_pair_ok h

theorem setNonce_count {a : Addr} {w w' : W × Nat} {v : Option U256}
    (h : setNonce (counting I) a w v = .ok w') : w'.2 = w.2 := by
  cases v with
  | none => cases h; rfl
  | some v => exact map_pair_ok h

theorem useCode_count {a : Addr} {w : W × Nat} {code : Hash2Code} {cc : List Bytes}
    {u : Option CodeUsage} {r : (W × Nat) × Hash2Code × List Bytes}
    (h : useCode (counting I) env a w code cc u = .ok r) : r.1.2 = w.2 := by
  match u with
  | none => cases h; rfl
  | some (.read x) =>
    unfold useCode at h
    dsimp only at h
    split at h
    · split at h
      · cases h
      · obtain ⟨y, h1, h⟩ := bind_ok.1 h
        cases h; exact map_pair_ok h1
    · obtain ⟨y, h1, h⟩ := bind_ok.1 h
      cases h; exact map_pair_ok h1
  | some (.write x) =>
    unfold useCode at h
    dsimp only at h
    obtain ⟨y, h1, h⟩ := bind_ok.1 h
    cases h; exact map_pair_ok h1

theorem writeSlots_count {a : Addr} {l : List (H256 × U256)} {w w' : W × Nat} {ks : List Key}
    (h : writeSlots (counting I) a w l = .ok (w', ks)) : w'.2 = w.2 := by
  induction l generalizing w ks with
  | nil => cases h; rfl
  | cons x l ih =>
    obtain ⟨k, v⟩ := x
    unfold writeSlots at h
    split at h
    · obtain ⟨⟨w1, r⟩, h1, h⟩ := bind_ok.1 h
      obtain ⟨⟨w2, rs⟩, h2, h⟩ := bind_ok.1 h
      cases h
      rw [ih h2]
      exact map_pair_ok' h1
    · obtain ⟨w1, h1, h⟩ := bind_ok.1 h
      rw [ih h]
      exact map_pair_ok h1

theorem doWrites_count {a : Addr} {t : Trace} {w : W × Nat} {code : Hash2Code} {cc : List Bytes}
    {r : (W × Nat) × Hash2Code × List Bytes × List Key}
    (h : doWrites (counting I) env a t w code cc = .ok r) : r.1.2 = w.2 := by
  unfold doWrites at h
  obtain ⟨w1, h1, h⟩ := bind_ok.1 h
  obtain ⟨w2, h2, h⟩ := bind_ok.1 h
  obtain ⟨⟨w3, c, cc'⟩, h3, h⟩ := bind_ok.1 h
  obtain ⟨⟨w4, ks⟩, h4, h⟩ := bind_ok.1 h
  cases h
  rw [show w4.2 = w3.2 from writeSlots_count h4, show w3.2 = w2.2 from useCode_count h3,
    setNonce_count h2, setBalance_count h1]

theorem destruct_count {a : Addr} {w w' : W × Nat} {d : Bool} {p : Option P}
    (h : destruct (counting I) a w d = .ok (w', p)) : w'.2 = w.2 := by
  unfold destruct at h
  split at h
  · obtain ⟨w1, h1, h⟩ := bind_ok.1 h
    rw [show w'.2 = w1.2 from map_pair_ok' h, map_pair_ok h1]
  · cases h; rfl

theorem applyTrace_count {rc : Bytes} {a : Addr} {t : Trace} {st st' : (W × Nat) × Hash2Code}
    {loc loc' : Loc P} (h : applyTrace (counting I) env rc a t st loc = .ok (st', loc')) :
    st'.1.2 = st.1.2 := by
  unfold applyTrace at h
  obtain ⟨m, -, h⟩ := bind_ok.1 h
  obtain ⟨status, -, h⟩ := bind_ok.1 h
  obtain ⟨⟨w, born⟩, h1, h⟩ := bind_ok.1 h
  obtain ⟨⟨w1, code, cc, ks⟩, h2, h⟩ := bind_ok.1 h
  obtain ⟨⟨w2, p⟩, h3, h⟩ := bind_ok.1 h
  cases h
  have e2 : w1.2 = w.2 := by
    unfold writePhase at h2
    split at h2
    · exact doWrites_count h2
    · cases h2; rfl
  show w2.2 = _
  rw [destruct_count h3, e2, bear_count h1]

theorem applyTraces_count {rc : Bytes} {l : List (Addr × Trace)} {st st' : (W × Nat) × Hash2Code}
    {loc loc' : Loc P} (h : applyTraces (counting I) env rc l st loc = .ok (st', loc')) :
    st'.1.2 = st.1.2 := by
  induction l generalizing st loc with
  | nil => cases h; rfl
  | cons x l ih =>
    obtain ⟨a, t⟩ := x
    unfold applyTraces at h
    obtain ⟨⟨st1, loc1⟩, h1, h⟩ := bind_ok.1 h
    rw [ih h, applyTrace_count h1]

theorem applyTxns_count {l : List (Option Txn)} {st st' : St (W × Nat)} {loc loc' : Loc P}
    (h : applyTxns (counting I) env l st loc = .ok (st', loc')) : st'.world.2 = st.world.2 := by
  induction l generalizing st loc with
  | nil => cases h; rfl
  | cons t l ih =>
    unfold applyTxns at h
    obtain ⟨⟨st1, loc1⟩, h1, h⟩ := bind_ok.1 h
    rw [ih h]
    unfold applyTxn at h1
    obtain ⟨⟨tt, rt, bc⟩, -, h1⟩ := bind_ok.1 h1
    obtain ⟨⟨⟨w, code⟩, loc2⟩, h2, h1⟩ := bind_ok.1 h1
    cases h1
    exact applyTraces_count h2

theorem applyWithdrawals_count {l : List (Addr × U256)} {w w' : W × Nat}
    (h : applyWithdrawals (counting I) l w = .ok w') : w'.2 = w.2 := by
  induction l generalizing w with
  | nil => cases h; rfl
  | cons x l ih =>
    obtain ⟨a, amt⟩ := x
    unfold applyWithdrawals at h
    obtain ⟨w1, h1, h⟩ := bind_ok.1 h
    rw [ih h, map_pair_ok h1]

theorem runBatch_count {pre : Hook W P} {n : Nat} {b : List (Option Txn)} {st st2 : St (W × Nat)}
    {o : Batch (W × Nat)} (h : runBatch (counting I) env (countHook pre) n b st = .ok (st2, o)) :
    st2.world.2 = st.world.2 + (if st.txnIx = 0 then 1 else 0) ∧ o.world.2 = st.world.2 := by
  obtain ⟨r⟩ := runBatch_inv h
  have h0 : r.w0.2 = st.world.2 + (if st.txnIx = 0 then 1 else 0) := by
    have := r.hook
    unfold runHook at this
    split at this
    · rename_i hz
      rw [if_pos hz]
      exact map_pair_ok' this
    · rename_i hz
      rw [if_neg hz, ← (Prod.mk.inj (Except.ok.inj this)).1]; rfl
  constructor
  · rw [r.st2_eq]
    show r.w'.2 = _
    rw [applyWithdrawals_count r.wds, applyTxns_count r.txns]
    exact h0
  · rw [map_pair_ok r.mstor, map_pair_ok r.mask]

theorem runBatch_ix {pre : Hook W P} {n : Nat} {b : List (Option Txn)} {st st2 : St W}
    {o : Batch W} (h : runBatch I env pre n b st = .ok (st2, o)) :
    st2.txnIx = st.txnIx + (b.filterMap id).length := by
  obtain ⟨r⟩ := runBatch_inv h
  rw [r.st2_eq]
  exact (applyTxns_inv r.txns).1

theorem runBatches_count_pos {pre : Hook W P} {n : Nat} {bs : List (List (Option Txn))}
    {st st2 : St (W × Nat)} {out : List (Batch (W × Nat))}
    (h : runBatches (counting I) env (countHook pre) n bs st = .ok (st2, out)) (hp : st.txnIx ≠ 0) :
    st2.world.2 = st.world.2 ∧ ∀ o ∈ out, o.world.2 = st.world.2 := by
  induction bs generalizing st out with
  | nil => cases h; exact ⟨rfl, by simp⟩
  | cons b bs ih =>
    obtain ⟨st1, o, os, rfl, h1, h2⟩ := runBatches_cons h
    obtain ⟨c1, c2⟩ := runBatch_count h1
    rw [if_neg hp] at c1
    have := runBatch_ix h1
    obtain ⟨d1, d2⟩ := ih h2 (by omega)
    refine ⟨by omega, ?_⟩
    intro x hx
    rcases List.mem_cons.1 hx with rfl | hx
    · exact c2
    · rw [d2 x hx]; omega

/-- Full statement of C51: over a whole block the pre-execution hook runs exactly once. (It is false:
see `C51_violated_empty_block`.) -/
def C51_statement : Prop :=
  ∀ (W P : Type) (I : Ops W P) (env : Env) (pre : Hook W P) (w : W) (code : Hash2Code)
    (ws : List (Addr × U256)) (txns : List Txn) (hint : Nat) (st : St (W × Nat))
    (out : List (Batch (W × Nat))),
    runBatches (counting I) env (countHook pre) (batch txns hint).flatten.length (batch txns hint)
      { world := (w, 0), code, withdrawals := ws } = .ok (st, out) → st.world.2 = 1

/-- **C51** (partial: blocks with at least one transaction). Whatever the world and the hook, over a
whole block the hook runs exactly once: it has not run when the state before the first batch is
recorded, and has run once in the state before every later batch and at the end. -/
theorem C51_pre_execution_once_partial {pre : Hook W P} {w : W} {code : Hash2Code}
    {ws : List (Addr × U256)} {txns : List Txn} {hint : Nat} {st : St (W × Nat)}
    {out : List (Batch (W × Nat))} (ht : txns ≠ [])
    (h : runBatches (counting I) env (countHook pre) (batch txns hint).flatten.length
      (batch txns hint) { world := (w, 0), code, withdrawals := ws } = .ok (st, out)) :
    st.world.2 = 1 ∧ ∃ o os, out = o :: os ∧ o.world.2 = 0 ∧ ∀ x ∈ os, x.world.2 = 1 := by
  obtain ⟨b1, b2, b3, -⟩ := C23_batches txns hint
  cases hb : batch txns hint with
  | nil => rw [hb] at b2; simp at b2
  | cons b bs =>
    rw [hb] at h b1
    obtain ⟨st1, o, os, rfl, h1, h2⟩ := runBatches_cons h
    obtain ⟨c1, c2⟩ := runBatch_count h1
    have hix := runBatch_ix h1
    have hpos : 0 < (b.filterMap id).length := by
      have hbne := (b3 b (by rw [hb]; simp)).1
      obtain ⟨x, xs, rfl⟩ := List.exists_cons_of_ne_nil hbne
      obtain ⟨t, ts, rfl⟩ := List.exists_cons_of_ne_nil ht
      simp only [List.flatten_cons, List.cons_append, List.map_cons, List.cons.injEq] at b1
      rw [b1.1]; simp
    obtain ⟨d1, d2⟩ := runBatches_count_pos h2 (by simp at hix; omega)
    rw [if_pos rfl] at c1
    exact ⟨by rw [d1, c1], o, os, rfl, c2, fun x hx => by rw [d2 x hx, c1]⟩

theorem empty_block_twice {pre : Hook W P} {w : W} {code : Hash2Code}
    {ws : List (Addr × U256)} {hint : Nat} {st : St (W × Nat)} {out : List (Batch (W × Nat))}
    (h : runBatches (counting I) env (countHook pre) (batch [] hint).flatten.length
      (batch [] hint) { world := (w, 0), code, withdrawals := ws } = .ok (st, out)) :
    st.world.2 = 2 := by
  have hb : batch [] hint = [[none], [none]] := by
    simp [batch, chunks_nil, List.replicate]
  rw [hb] at h
  obtain ⟨st1, o, os, rfl, h1, h2⟩ := runBatches_cons h
  obtain ⟨st2, o2, os2, rfl, h3, h4⟩ := runBatches_cons h2
  cases h4
  have e1 := (runBatch_count h1).1
  have e2 := (runBatch_count h3).1
  have e3 := runBatch_ix h1
  rw [if_pos rfl] at e1
  rw [if_pos (by simpa using e3), e1] at e2
  exact e2

end

/-! ## A concrete world -/

/-- A world with one number: the balance of everything. Used for the examples. -/
def toy : Ops Nat Unit where
  contains _ _ := .ok true
  updateBalance w _ f := (f w).map (·.toNat)
  updateNonce w _ _ := .ok w
  setCode w _ _ := .ok w
  reportingDestroy w _ := .ok (w, none)
  createStorage w _ := .ok w
  destroyStorage w _ := .ok w
  storeInt w _ _ _ := .ok w
  storeHash w _ _ _ := .ok w
  loadInt _ _ _ := .ok 0
  reportingDestroySlot w _ _ := .ok (w, none)
  maskStorage w _ := .ok w
  mask w _ := .ok w
  root _ := ⟨List.replicate 32 0, rfl⟩
  pathOf _ := ()
  codeHash _ := ⟨List.replicate 32 0, rfl⟩

/-- Surroundings for the examples. -/
def toyEnv : Env where
  keccak _ := ⟨List.replicate 32 0, rfl⟩
  mapReceipt b := .ok b
  status _ := .ok true
  fatalMissingCode := true

theorem batch_nil (hint : Nat) : batch [] hint = [[none], [none]] := by
  simp [batch, chunks_nil, List.replicate]

/-- **C51 is violated by the empty block**: the hook (whatever it does) runs twice, because the dummy
transactions do not advance the transaction index on which the hook is conditioned. -/
theorem C51_violated_empty_block : ¬ C51_statement := by
  intro h
  have := h Nat Unit toy toyEnv (fun w => .ok (w, [], [])) 0 (fun _ => none) [] [] 1
    { world := (0, 2), code := fun _ => none, withdrawals := [], loopIx := 2 } _
    (by rw [batch_nil]; rfl)
  exact absurd this (by decide)

/-- Evaluation of an example: it succeeds with this result. -/
def givesOk {ε α} [DecidableEq α] (x : Except ε α) (a : α) : Bool :=
  match x with
  | .ok b => decide (b = a)
  | .error _ => false

/-- The block of the examples. -/
def toyTxns : List Txn :=
  [{ byteCode := [1], gasUsed := 10 }, { byteCode := [2], gasUsed := 20 },
   { byteCode := [3], gasUsed := 30 }]

theorem toy_batch : batch toyTxns 2 = [[some { byteCode := [1], gasUsed := 10 },
    some { byteCode := [2], gasUsed := 20 }], [some { byteCode := [3], gasUsed := 30 }]] := by
  simp [batch, chunks, toyTxns]

set_option synthInstance.maxSize 1000 in
set_option synthInstance.maxHeartbeats 200000 in
/-- Non-vacuity of C24, C25: a block of three transactions and a withdrawal, in two batches. -/
example : givesOk ((entrypoint toy toyEnv .polygonPos ⟨1, 1, ⟨List.replicate 32 0, rfl⟩⟩ none 5
    (fun _ => none) [] toyTxns 2 [([7], 3)]).map (·.map (fun i => (i.txnNumberBefore, i.gasUsedBefore,
      i.gasUsedAfter, i.signedTxns, i.withdrawals.map (fun x => (x.1, x.2.toNat))))))
    [(0, 0, 30, [[1], [2]], []), (2, 30, 60, [[3]], [([7], 3000000000)])] = true := by
  unfold entrypoint
  rw [toy_batch]
  decide +kernel

/-- Non-vacuity of C51. -/
example : givesOk ((runBatches (counting toy) toyEnv (countHook (fun w => .ok (w, [], []))) 3
    (batch toyTxns 2) { world := (5, 0), code := fun _ => none, withdrawals := [] }).map
      (fun r => (r.1.world.2, r.2.map (·.world.2)))) (1, [0, 1]) = true := by
  rw [toy_batch]
  decide +kernel

end Verif.Decoder
