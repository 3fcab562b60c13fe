import Verif.Decoder.Block
import Verif.Mpt.Witness
/-!
# C55: the partial tries of a proof input contain what the batch touches
-/
namespace Verif.Decoder
open Mpt (Key Bytes Node H256 Entry Fixed Hidden)
open World

/-! ## Masks -/

/-- Key `k` is in the mask of address `a`. -/
def InMask (m : Masks) (a : Addr) (k : Key) : Prop := ∃ l, (a, l) ∈ m ∧ k ∈ l

/-- Address `a` has a mask. -/
def HasMask (m : Masks) (a : Addr) : Prop := ∃ l, (a, l) ∈ m

theorem addMask_fst (m : Masks) (a : Addr) (ks : List Key) :
    (addMask m a ks).map (·.1) = if a ∈ m.map (·.1) then m.map (·.1) else m.map (·.1) ++ [a] := by
  induction m with
  | nil => simp [addMask]
  | cons x m ih =>
    obtain ⟨b, l⟩ := x
    unfold addMask
    by_cases h : b = a
    · subst h; simp
    · rw [if_neg h]
      simp only [List.map_cons, ih, List.mem_cons, Ne.symm h, false_or]
      split <;> simp

theorem addMask_nodup {m : Masks} (h : (m.map (·.1)).Nodup) (a : Addr) (ks : List Key) :
    ((addMask m a ks).map (·.1)).Nodup := by
  rw [addMask_fst]
  split
  · exact h
  · rename_i hn
    rw [List.nodup_append]
    exact ⟨h, by simp, by rintro x hx y hy rfl; simp at hy; exact hn (hy ▸ hx)⟩

theorem addMask_has {m : Masks} {a b : Addr} {ks : List Key} (h : HasMask m b) :
    HasMask (addMask m a ks) b := by
  obtain ⟨l, h⟩ := h
  have : b ∈ (addMask m a ks).map (·.1) := by
    rw [addMask_fst]
    have : b ∈ m.map (·.1) := List.mem_map.2 ⟨_, h, rfl⟩
    split
    · exact this
    · exact List.mem_append_left _ this
  obtain ⟨⟨x, l'⟩, hm, rfl⟩ := List.mem_map.1 this
  exact ⟨l', hm⟩

theorem addMask_has_self (m : Masks) (a : Addr) (ks : List Key) : HasMask (addMask m a ks) a := by
  have : a ∈ (addMask m a ks).map (·.1) := by
    rw [addMask_fst]
    split
    · assumption
    · simp
  obtain ⟨⟨x, l'⟩, hm, rfl⟩ := List.mem_map.1 this
  exact ⟨l', hm⟩

theorem addMask_new (m : Masks) (a : Addr) (ks : List Key) {k : Key} (hk : k ∈ ks) :
    InMask (addMask m a ks) a k := by
  induction m with
  | nil => exact ⟨ks, by simp [addMask], hk⟩
  | cons x m ih =>
    obtain ⟨b, l⟩ := x
    unfold addMask
    by_cases h : b = a
    · subst h
      rw [if_pos rfl]
      exact ⟨l ++ ks, by simp, by simp [hk]⟩
    · rw [if_neg h]
      obtain ⟨l', h1, h2⟩ := ih
      exact ⟨l', by simp [h1], h2⟩

theorem addMask_old {m : Masks} {a b : Addr} {ks : List Key} {k : Key} (h : InMask m b k) :
    InMask (addMask m a ks) b k := by
  induction m with
  | nil => obtain ⟨l, h, -⟩ := h; cases h
  | cons x m ih =>
    obtain ⟨c, l⟩ := x
    obtain ⟨l', h1, h2⟩ := h
    unfold addMask
    by_cases he : c = a
    · rw [if_pos he]
      rcases List.mem_cons.1 h1 with h1 | h1
      · cases h1; exact ⟨l ++ ks, by simp, by simp [h2]⟩
      · exact ⟨l', by simp [h1], h2⟩
    · rw [if_neg he]
      rcases List.mem_cons.1 h1 with h1 | h1
      · cases h1; exact ⟨l, by simp, h2⟩
      · obtain ⟨l'', h3, h4⟩ := ih ⟨l', h1, h2⟩
        exact ⟨l'', by simp [h3], h4⟩

/-- The masks of a batch cover a trace. -/
structure Covers {P : Type} (I : Ops World1 P) (env : Env) (loc : Loc P) (a : Addr) (t : Trace) : Prop where
  acct : I.pathOf a ∈ loc.pmask
  has : HasMask loc.smasks a
  slot : ∀ s ∈ t.storageRead ++ t.storageWritten.map (·.1), InMask loc.smasks a (slotKey env.keccak s)

section
variable {P : Type} {I : Ops World1 P} {env : Env} {ss : Mpt.Strategy}

theorem applyTrace_masks {rc : Bytes} {a : Addr} {t : Trace} {st st' : World1 × Hash2Code}
    {loc loc' : Loc P} (h : applyTrace I env rc a t st loc = .ok (st', loc')) :
    Covers I env loc' a t ∧ (∀ b u, Covers I env loc b u → Covers I env loc' b u) ∧
      ((loc.smasks.map (·.1)).Nodup → (loc'.smasks.map (·.1)).Nodup) ∧
      (∀ b, HasMask loc'.smasks b → b = a ∨ HasMask loc.smasks b) := by
  unfold applyTrace at h
  obtain ⟨m, -, h⟩ := bind_ok.1 h
  obtain ⟨status, -, h⟩ := bind_ok.1 h
  obtain ⟨⟨w, born⟩, -, h⟩ := bind_ok.1 h
  obtain ⟨⟨w1, code, cc, ks⟩, -, h⟩ := bind_ok.1 h
  obtain ⟨⟨w2, p⟩, -, h⟩ := bind_ok.1 h
  cases h
  refine ⟨⟨by simp, addMask_has_self _ _ _, fun s hs => ?_⟩, fun b u hc => ⟨?_, ?_, ?_⟩, ?_, ?_⟩
  · apply addMask_new
    apply List.mem_append_left
    apply List.mem_map.2
    refine ⟨s, ?_, rfl⟩
    rw [List.mem_append] at hs ⊢
    exact hs.symm
  · simp [hc.acct]
  · exact addMask_has hc.has
  · exact fun s hs => addMask_old (hc.slot s hs)
  · exact fun hn => addMask_nodup hn _ _
  · intro b hb
    obtain ⟨l, hb⟩ := hb
    have hb : b ∈ (addMask loc.smasks a _).map (·.1) := List.mem_map.2 ⟨_, hb, rfl⟩
    rw [addMask_fst] at hb
    split at hb
    · obtain ⟨⟨x, l'⟩, hm, rfl⟩ := List.mem_map.1 hb
      exact .inr ⟨l', hm⟩
    · rcases List.mem_append.1 hb with hb | hb
      · obtain ⟨⟨x, l'⟩, hm, rfl⟩ := List.mem_map.1 hb
        exact .inr ⟨l', hm⟩
      · exact .inl (by simpa using hb)

theorem applyTraces_masks {rc : Bytes} {l : List (Addr × Trace)} {st st' : World1 × Hash2Code}
    {loc loc' : Loc P} (h : applyTraces I env rc l st loc = .ok (st', loc')) :
    (∀ x ∈ l, Covers I env loc' x.1 x.2) ∧ (∀ b u, Covers I env loc b u → Covers I env loc' b u) ∧
      ((loc.smasks.map (·.1)).Nodup → (loc'.smasks.map (·.1)).Nodup) ∧
      (∀ b, HasMask loc'.smasks b → b ∈ l.map (·.1) ∨ HasMask loc.smasks b) := by
  induction l generalizing st loc with
  | nil => cases h; exact ⟨by simp, fun b u h => h, id, fun b h => .inr h⟩
  | cons x l ih =>
    obtain ⟨a, t⟩ := x
    unfold applyTraces at h
    obtain ⟨⟨st1, loc1⟩, h1, h⟩ := bind_ok.1 h
    obtain ⟨a1, a2, a3, a4⟩ := applyTrace_masks h1
    obtain ⟨b1, b2, b3, b4⟩ := ih h
    refine ⟨fun x hx => ?_, fun b u hc => b2 b u (a2 b u hc), fun hn => b3 (a3 hn), fun b hb => ?_⟩
    · rcases List.mem_cons.1 hx with rfl | hx
      · exact b2 _ _ a1
      · exact b1 x hx
    · rcases b4 b hb with hb | hb
      · exact .inl (by simp [hb])
      · rcases a4 b hb with rfl | hb
        · exact .inl (by simp)
        · exact .inr hb

/-- The accounts touched by the transactions of a batch, with their traces. -/
def tracesOf (b : List (Option Txn)) : List (Addr × Trace) := (b.filterMap id).flatMap (·.traces)

theorem applyTxns_masks {l : List (Option Txn)} {st st' : St World1} {loc loc' : Loc P}
    (h : applyTxns I env l st loc = .ok (st', loc')) :
    (∀ x ∈ tracesOf l, Covers I env loc' x.1 x.2) ∧
      (∀ b u, Covers I env loc b u → Covers I env loc' b u) ∧
      ((loc.smasks.map (·.1)).Nodup → (loc'.smasks.map (·.1)).Nodup) ∧
      (∀ b, HasMask loc'.smasks b → b ∈ (tracesOf l).map (·.1) ∨ HasMask loc.smasks b) := by
  induction l generalizing st loc with
  | nil => cases h; exact ⟨by simp [tracesOf], fun b u h => h, id, fun b h => .inr h⟩
  | cons t l ih =>
    unfold applyTxns at h
    obtain ⟨⟨st1, loc1⟩, h1, h⟩ := bind_ok.1 h
    unfold applyTxn at h1
    obtain ⟨⟨tt, rt, bc⟩, -, h1⟩ := bind_ok.1 h1
    obtain ⟨⟨⟨w, code⟩, loc2⟩, h2, h1⟩ := bind_ok.1 h1
    cases h1
    obtain ⟨a1, a2, a3, a4⟩ := applyTraces_masks h2
    obtain ⟨b1, b2, b3, b4⟩ := ih h
    have e : tracesOf (t :: l) = (t.getD {}).traces ++ tracesOf l := by
      cases t <;> simp [tracesOf]
    rw [e]
    refine ⟨fun x hx => ?_, fun b u hc => b2 b u (a2 b u ⟨hc.acct, hc.has, hc.slot⟩),
      fun hn => b3 (a3 hn), fun b hb => ?_⟩
    · rcases List.mem_append.1 hx with hx | hx
      · exact b2 _ _ (a1 x hx)
      · exact b1 x hx
    · rcases b4 b hb with hb | hb
      · exact .inl (by simp at hb ⊢; exact .inr hb)
      · rcases a4 b hb with hb | hb
        · exact .inl (by simp at hb ⊢; exact .inl hb)
        · exact .inr hb

end

/-! ## Masking the storage tries -/

theorem maskLoop_other {keccak : Bytes → H256} {s s' : H256 → Option Node} {ms : Masks}
    (h : maskLoop keccak s ms = .ok s') {x : H256} (hx : ∀ m ∈ ms, keccak m.1 ≠ x) : s' x = s x := by
  induction ms generalizing s with
  | nil => cases h; rfl
  | cons m ms ih =>
    obtain ⟨ad, ks⟩ := m
    unfold maskLoop at h
    have hx' : ∀ m ∈ ms, keccak m.1 ≠ x := fun m hm => hx m (by simp [hm])
    split at h
    · exact ih h hx'
    · split at h
      · rw [ih h hx', setStorage, if_neg (Ne.symm (hx (ad, ks) (by simp)))]
      · cases h

theorem maskLoop_get {keccak : Bytes → H256} {s s' : H256 → Option Node} {ms : Masks}
    (h : maskLoop keccak s ms = .ok s')
    (hn : ms.Pairwise (fun x y => keccak x.1 ≠ keccak y.1)) {a : Addr} {ks : List Key}
    (hm : (a, ks) ∈ ms) {t : Node} (ht : s (keccak a) = some t) :
    ∃ t', s' (keccak a) = some t' ∧ Mpt.createSubset keccak t ks = .ok t' := by
  induction ms generalizing s with
  | nil => cases hm
  | cons m ms ih =>
    obtain ⟨ad, ks'⟩ := m
    obtain ⟨n1, n2⟩ := List.pairwise_cons.1 hn
    unfold maskLoop at h
    rcases List.mem_cons.1 hm with he | hm
    · cases he
      rw [ht] at h
      dsimp only at h
      split at h
      · rename_i t' h1
        refine ⟨t', ?_, ofSubset_ok.1 h1⟩
        rw [maskLoop_other h (fun m hm => Ne.symm (n1 m hm)), setStorage, if_pos rfl]
      · cases h
    · have hne : keccak a ≠ keccak ad := Ne.symm (n1 (a, ks) hm)
      split at h
      · exact ih h n2 hm ht
      · split at h
        · exact ih h n2 hm (by rw [setStorage, if_neg hne]; exact ht)
        · cases h

theorem pairwise_of_nodup {keccak : Bytes → H256} {ms : Masks} (h : (ms.map (·.1)).Nodup)
    (hi : ∀ x y, HasMask ms x → HasMask ms y → keccak x = keccak y → x = y) :
    ms.Pairwise (fun x y => keccak x.1 ≠ keccak y.1) := by
  rw [List.Nodup, List.pairwise_map] at h
  refine List.Pairwise.imp_of_mem ?_ h
  intro x y hx hy hne he
  exact hne (hi _ _ ⟨x.2, hx⟩ ⟨y.2, hy⟩ he)

/-! ## C55 -/

/-- A partial trie answers a key exactly like the full one, and does not hide it (unless the full trie
already did). -/
def Answers (part full : Node) (k : Key) : Prop :=
  Mpt.get part k = Mpt.get full k ∧ (Hidden part k → Hidden full k)

theorem beaconHook_masks {P : Type} {I : Ops World1 P} {env : Env} {b : Block} {w w' : World1}
    {m : Masks} {p : List P} (h : beaconHook I env b w = .ok (w', m, p)) :
    (m.map (·.1)).Nodup ∧ ∀ a, HasMask m a → a = beaconAddr := by
  have key : ∀ {w w' : World1} {m m' : Masks} {ix u}, beaconStore I env w m ix u = .ok (w', m') →
      m.map (·.1) = [beaconAddr] → m'.map (·.1) = [beaconAddr] := by
    intro w w' m m' ix u h hm
    unfold beaconStore at h
    dsimp only at h
    split at h
    · obtain ⟨⟨w1, r⟩, -, h⟩ := bind_ok.1 h
      cases h
      simp [addMask_fst, hm]
    · obtain ⟨w1, -, h⟩ := bind_ok.1 h
      cases h
      simp [addMask_fst, hm]
  unfold beaconHook at h
  obtain ⟨⟨w1, m1⟩, h1, h⟩ := bind_ok.1 h
  obtain ⟨⟨w2, m2⟩, h2, h⟩ := bind_ok.1 h
  cases h
  have e := key h2 (key h1 (by simp [addMask]))
  refine ⟨by rw [e]; simp, fun a ⟨l, ha⟩ => ?_⟩
  have hm : a ∈ m.map (·.1) := List.mem_map.2 ⟨_, ha, rfl⟩
  rw [e] at hm
  simpa using hm

theorem scalableHook_masks {P : Type} {I : Ops World1 P} {env : Env} {b : Block}
    {ger : Option (H256 × H256)} {w w' : World1} {m : Masks} {p : List P}
    (h : scalableHook I env b ger w = .ok (w', m, p)) :
    (m.map (·.1)).Nodup ∧ ∀ a, HasMask m a → a = scalableAddr ∨ a = gerAddr := by
  have key : ∀ {w w' : World1} {m m' : Masks} {ix u}, scalableStore I env w m ix u = .ok (w', m') →
      m.map (·.1) = [scalableAddr] → m'.map (·.1) = [scalableAddr] := by
    intro w w' m m' ix u h hm
    unfold scalableStore at h
    split at h
    · cases h
    · obtain ⟨w1, -, h⟩ := bind_ok.1 h
      cases h
      simp [addMask_fst, hm]
  have fin : ∀ (l : List Addr), m.map (·.1) = l → l.Nodup → (∀ a ∈ l, a = scalableAddr ∨ a = gerAddr) →
      (m.map (·.1)).Nodup ∧ ∀ a, HasMask m a → a = scalableAddr ∨ a = gerAddr := by
    intro l hl hn ha
    refine ⟨by rw [hl]; exact hn, fun a ⟨k, hk⟩ => ha a ?_⟩
    rw [← hl]; exact List.mem_map.2 ⟨_, hk, rfl⟩
  unfold scalableHook at h
  split at h
  · cases h
  · obtain ⟨⟨w1, m1⟩, h1, h⟩ := bind_ok.1 h
    obtain ⟨⟨w2, m2⟩, h2, h⟩ := bind_ok.1 h
    obtain ⟨w3, h3, h⟩ := bind_ok.1 h
    have e := key h2 (key h1 (by simp [addMask]))
    cases ger with
    | none =>
      cases h
      exact fin [scalableAddr] (by simp [addMask_fst, e]) (by simp) (by simp)
    | some x =>
      obtain ⟨root, l1⟩ := x
      dsimp only at h
      obtain ⟨w4, h4, h⟩ := bind_ok.1 h
      cases h
      refine fin [scalableAddr, gerAddr] ?_ (by decide) (by simp)
      have hne : gerAddr ≠ scalableAddr := by decide
      simp [addMask_fst, e, hne]

/-- Addresses touched by the pre-execution hooks. -/
def hookAddrs : List Addr := [beaconAddr, scalableAddr, gerAddr]

theorem preExecution_masks {P : Type} {I : Ops World1 P} {env : Env} {c : Chain} {b : Block}
    {ger : Option (H256 × H256)} {w w' : World1} {m : Masks} {p : List P}
    (h : preExecution I env c b ger w = .ok (w', m, p)) :
    (m.map (·.1)).Nodup ∧ ∀ a, HasMask m a → a ∈ hookAddrs := by
  cases c with
  | ethMainnet =>
    obtain ⟨h1, h2⟩ := beaconHook_masks h
    exact ⟨h1, fun a ha => by simp [hookAddrs, h2 a ha]⟩
  | cdkErigon =>
    obtain ⟨h1, h2⟩ := scalableHook_masks h
    exact ⟨h1, fun a ha => by rcases h2 a ha with rfl | rfl <;> simp [hookAddrs]⟩
  | polygonPos =>
    cases h
    exact ⟨by simp, fun a ⟨l, ha⟩ => by cases ha⟩

theorem pathOf_eq {env : Env} (a : Addr) : (type1 env.keccak ss).pathOf a = keyOfHash (env.keccak a) := rfl

/-- **C55**. For every batch of every block, run from any state with 64-nibble keys: each account
mentioned by a trace of the batch (or credited by a withdrawal in it) can be read in the proof input's
state trie with the same answer as in the full state trie before the batch, and each slot that a trace
reads or writes can be read in the input's storage trie of that account with the same answer as in the
full storage trie. `hinj`: keccak does not collide on the touched addresses. -/
theorem C55_witness_complete {env : Env} {c : Chain} {blk : Block} {ger : Option (H256 × H256)} {n : Nat}
    {b : List (Option Txn)} {st st2 : St World1} {o : Batch World1}
    (hs : Fixed 64 st.world.state) (hst : ∀ h t, st.world.storage h = some t → Fixed 64 t)
    (hinj : ∀ x y, x ∈ (tracesOf b).map (·.1) ++ hookAddrs → y ∈ (tracesOf b).map (·.1) ++ hookAddrs →
      env.keccak x = env.keccak y → x = y)
    (h : runBatch (type1 env.keccak ss) env (preExecution (type1 env.keccak ss) env c blk ger) n b st =
      .ok (st2, o)) :
    (∀ x ∈ tracesOf b,
      Answers o.world.state st.world.state (keyOfHash (env.keccak x.1)) ∧
      ∀ full, st.world.storage (env.keccak x.1) = some full →
        ∃ part, o.world.storage (env.keccak x.1) = some part ∧
          ∀ s ∈ x.2.storageRead ++ x.2.storageWritten.map (·.1),
            Answers part full (slotKey env.keccak s)) ∧
    ∀ x ∈ o.withdrawals, Answers o.world.state st.world.state (keyOfHash (env.keccak x.1)) := by
  obtain ⟨r⟩ := runBatch_inv h
  obtain ⟨a1, -, a3, a4⟩ := applyTxns_masks r.txns
  -- masks of the hook
  have hh : (r.sm.map (·.1)).Nodup ∧ ∀ a, HasMask r.sm a → a ∈ hookAddrs := by
    have := r.hook
    unfold runHook at this
    split at this
    · exact preExecution_masks this
    · have e := (Prod.mk.inj (Prod.mk.inj (Except.ok.inj this)).2).1
      rw [← e]
      exact ⟨by simp, fun a ⟨l, ha⟩ => by cases ha⟩
  have hnd := a3 hh.1
  have hpw := pairwise_of_nodup (keccak := env.keccak) hnd (fun x y hx hy he => by
    have conv : ∀ z, HasMask r.loc.smasks z → z ∈ (tracesOf b).map (·.1) ++ hookAddrs := by
      intro z hz
      rcases a4 z hz with hz | hz
      · exact List.mem_append_left _ hz
      · exact List.mem_append_right _ (hh.2 z hz)
    exact hinj x y (conv x hx) (conv y hy) he)
  -- the state trie
  obtain ⟨t1, m1, m2⟩ := bind_ok.1 r.mask
  have m2 := Except.ok.inj m2
  have hsub := ofSubset_ok.1 m1
  obtain ⟨s1, m3, m4⟩ := bind_ok.1 r.mstor
  have m4 := Except.ok.inj m4
  have hstate : o.world.state = t1 := by rw [← m4, ← m2]
  have hstor : o.world.storage = s1 := by rw [← m4]
  have hbw : r.bw.storage = st.world.storage := by rw [← m2]
  have acct : ∀ a, (type1 env.keccak ss).pathOf a ∈ r.loc.pmask ++
      (if r.st'.loopIx = n then r.st'.withdrawals else []).map (fun a => (type1 env.keccak ss).pathOf a.1) →
      Answers o.world.state st.world.state (keyOfHash (env.keccak a)) := by
    intro a ha
    rw [hstate]
    exact hs.subset hsub ha (C15_hash_key _ (env.keccak a)).1
  refine ⟨fun x hx => ⟨acct _ (List.mem_append_left _ (a1 x hx).acct), fun full hf => ?_⟩, fun x hx => ?_⟩
  · obtain ⟨l, hl⟩ := (a1 x hx).has
    have hkeep : (r.loc.smasks.any (fun m => env.keccak m.1 == env.keccak x.1)) = true := by
      simp only [List.any_eq_true]
      exact ⟨_, hl, by simp⟩
    obtain ⟨part, p1, p2⟩ := maskLoop_get m3 hpw hl (t := full) (by
      simp only [hkeep, if_true, hbw]; exact hf)
    refine ⟨part, by rw [hstor]; exact p1, fun s hsl => ?_⟩
    obtain ⟨l', hl', hk'⟩ := (a1 x hx).slot s hsl
    have : l' = l := by
      have := List.pairwise_iff_getElem.1 hpw
      obtain ⟨i, hi, ei⟩ := List.mem_iff_getElem.1 hl
      obtain ⟨j, hj, ej⟩ := List.mem_iff_getElem.1 hl'
      rcases Nat.lt_trichotomy i j with hij | hij | hij
      · exact absurd (by rw [ei, ej]) (this i j hi hj hij)
      · subst hij; rw [ei] at ej; exact (Prod.mk.inj ej).2.symm
      · exact absurd (by rw [ei, ej]) (this j i hj hi hij)
    subst this
    exact (hst _ _ hf).subset p2 hk' (C15_hash_key _ (env.keccak s.bytes)).1
  · refine acct _ (List.mem_append_right _ ?_)
    rw [r.o_wds] at hx
    exact List.mem_map.2 ⟨x, hx, rfl⟩

/-- Non-vacuity of C55: the second transaction of the example, run on the state the first leaves. The
input's storage trie answers the slot written by the first. -/
example : (match runBatch (type1 toyHash .collapseToExtension) toyEnv1 (preExecution (type1 toyHash .collapseToExtension) toyEnv1 .polygonPos
        ⟨1, 1, toyHash []⟩ none) 2 [toyTraces[0]?] ⟨⟨.empty, fun _ => none⟩, fun _ => none, .empty, .empty, 0, 0, []⟩ with
    | .ok (st, _) => match runBatch (type1 toyHash .collapseToExtension) toyEnv1 (preExecution (type1 toyHash .collapseToExtension) toyEnv1 .polygonPos
        ⟨1, 1, toyHash []⟩ none) 2 [some { receipt := [9], traces :=
          [([1], { storageRead := [toyHash [3]] }), ([5], {})] }] st with
      | .ok (_, o) => match o.world.storage (toyHash [1]) with
        | some t => match Mpt.get t (slotKey toyHash (toyHash [3])) with
          | .ok v => decide (v = some (encodeInt 7))
          | .error _ => false
        | none => false
      | .error _ => false
    | .error _ => false) = true ∧
    ∀ x ∈ [[1], [5]] ++ hookAddrs, ∀ y ∈ [[1], [5]] ++ hookAddrs, toyHash x = toyHash y → x = y := by
  constructor
  · decide +kernel
  · decide +kernel

end Verif.Decoder
