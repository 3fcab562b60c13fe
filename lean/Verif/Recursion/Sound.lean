import Verif.Recursion.Spec

/-! # Accepted proofs stand for what the specification says -/
namespace Verif.Recursion

open Verif.Stark (F)

/-- The four circuits have different keys. -/
structure Setup.Distinct (S : Setup) : Prop where
  rs : S.rootVK ≠ S.segVK
  rb : S.rootVK ≠ S.batchVK
  rk : S.rootVK ≠ S.blockVK
  sb : S.segVK ≠ S.batchVK
  sk : S.segVK ≠ S.blockVK
  bk : S.batchVK ≠ S.blockVK

theorem IsBool.cases {b : F} (h : IsBool b) : b = 0 ∨ b = 1 := h

theorem Metadata.agree_of_condEq {a b : Metadata} (h : a.condEq 1 b) : a.AgreeButBlob b := by
  obtain ⟨h1, h2, h3, h4, h5, h6, h7, h8, h9, h10⟩ := h
  simp only [Recursion.condEq_one] at *
  exact ⟨funext h1, h2, h3, h4, funext h5, h6, h7, funext h8, h9, funext h10⟩

theorem Metadata.AgreeButBlob.refl (a : Metadata) : a.AgreeButBlob a := ⟨rfl, rfl, rfl, rfl, rfl, rfl, rfl, rfl, rfl, rfl⟩

theorem Metadata.AgreeButBlob.trans {a b c : Metadata} (h : a.AgreeButBlob b) (k : b.AgreeButBlob c) : a.AgreeButBlob c :=
  ⟨h.1.trans k.1, h.2.trans k.2, h.3.trans k.3, h.4.trans k.4, h.5.trans k.5, h.6.trans k.6, h.7.trans k.7, h.8.trans k.8,
    h.9.trans k.9, h.10.trans k.10⟩

theorem Metadata.AgreeButBlob.symm {a b : Metadata} (h : a.AgreeButBlob b) : b.AgreeButBlob a :=
  ⟨h.1.symm, h.2.symm, h.3.symm, h.4.symm, h.5.symm, h.6.symm, h.7.symm, h.8.symm, h.9.symm, h.10.symm⟩

theorem SegRun.single {S : Setup} {s : PV} (h : S.segment s) : SegRun S [s] s where
  proven := by simp [h]
  contiguous := by simp
  starts := ⟨s, by simp⟩
  ends := ⟨s, by simp⟩
  roots := by simp
  hashes := by simp
  extra := by simp
  metadata := by simp [Metadata.AgreeButBlob.refl]

/-- One run, seen through public values that agree with it. -/
theorem SegRun.congr {S : Setup} {l : List PV} {x pv : PV} (h : SegRun S l x) (h1 : pv.rootsBefore = x.rootsBefore)
    (h2 : pv.rootsAfter = x.rootsAfter) (h3 : pv.metadata = x.metadata) (h4 : pv.hashes = x.hashes) (h5 : pv.extra = x.extra)
    (h6 : pv.regsBefore = x.regsBefore) (h7 : pv.regsAfter = x.regsAfter) (h8 : pv.memBefore = x.memBefore)
    (h9 : pv.memAfter = x.memAfter) : SegRun S l pv where
  proven := h.proven
  contiguous := h.contiguous
  starts := by rw [h3, h6, h8]; exact h.starts
  ends := by rw [h7, h9]; exact h.ends
  roots := by rw [h1, h2]; exact h.roots
  hashes := by rw [h4]; exact h.hashes
  extra := by rw [h5]; exact h.extra
  metadata := by rw [h3]; exact h.metadata

/-- Two runs, the second continuing the first. -/
theorem SegRun.append {S : Setup} {l r : List PV} {x y pv : PV} (hl : SegRun S l x) (hr : SegRun S r y)
    (hregs : x.regsAfter = y.regsBefore) (hmem : x.memAfter = y.memBefore)
    (h1 : pv.rootsBefore = x.rootsBefore) (h2 : pv.rootsAfter = x.rootsAfter) (h3 : pv.metadata = x.metadata)
    (h4 : pv.hashes = x.hashes) (h5 : pv.extra = x.extra) (h6 : pv.regsBefore = x.regsBefore) (h8 : pv.memBefore = x.memBefore)
    (k1 : pv.rootsBefore = y.rootsBefore) (k2 : pv.rootsAfter = y.rootsAfter) (k3 : pv.metadata.AgreeButBlob y.metadata)
    (k4 : pv.hashes = y.hashes) (k5 : pv.extra = y.extra) (k7 : pv.regsAfter = y.regsAfter) (k9 : pv.memAfter = y.memAfter) :
    SegRun S (l ++ r) pv := by
  obtain ⟨a, ha, ha1, ha2, ha3⟩ := hl.starts
  obtain ⟨b, hb, hb1, hb2⟩ := hr.ends
  obtain ⟨a', ha', ha1', ha2', -⟩ := hr.starts
  obtain ⟨b', hb', hb1', hb2'⟩ := hl.ends
  refine ⟨?_, ?_, ⟨a, ?_, ?_, ?_, ?_⟩, ⟨b, ?_, ?_, ?_⟩, ?_, ?_, ?_, ?_⟩
  · intro s hs
    rcases List.mem_append.1 hs with h | h
    · exact hl.proven s h
    · exact hr.proven s h
  · rw [List.isChain_append]
    refine ⟨hl.contiguous, hr.contiguous, ?_⟩
    intro u hu v hv
    rw [hb'] at hu; rw [ha'] at hv
    cases Option.mem_some.1 hu; cases Option.mem_some.1 hv
    exact ⟨by rw [hb1', ha1', hregs], by rw [hb2', ha2', hmem]⟩
  · simp [List.head?_append, ha]
  · rw [ha1, h6]
  · rw [ha2, h8]
  · rw [ha3, h3]
  · simp [List.getLast?_append, hb]
  · rw [hb1, k7]
  · rw [hb2, k9]
  · intro s hs
    rcases List.mem_append.1 hs with h | h
    · rw [h1, h2]; exact hl.roots s h
    · rw [k1, k2]; exact hr.roots s h
  · intro s hs
    rcases List.mem_append.1 hs with h | h
    · rw [h4]; exact hl.hashes s h
    · rw [k4]; exact hr.hashes s h
  · intro s hs
    rcases List.mem_append.1 hs with h | h
    · rw [h5]; exact hl.extra s h
    · rw [k5]; exact hr.extra s h
  · intro s hs
    rcases List.mem_append.1 hs with h | h
    · rw [h3]; exact hl.metadata s h
    · exact (hr.metadata s h).trans k3.symm

/-- The segment aggregation circuit, on children that stand for runs. -/
theorem SegAgg.run {S : Setup} {pv : PV} {lhs : AggChild} {rhs : DummyChild} (h : SegAgg S pv lhs rhs)
    (hl : ∃ l, SegRun S l lhs.pv) (hr : rhs.isDummy = 0 → ∃ r, SegRun S r rhs.pv) : ∃ l, SegRun S l pv := by
  obtain ⟨l, hl⟩ := hl
  rcases h.dummyBit with hd | hd
  · obtain ⟨r, hr⟩ := hr hd
    have e : (1 : F) - rhs.isDummy = 1 := by rw [hd]; ring
    refine ⟨l ++ r, hl.append hr ?_ ?_ ?_ ?_ ?_ ?_ ?_ ?_ ?_ ?_ ?_ ?_ ?_ ?_ ?_ ?_⟩
    · have := h.regsLR; rw [e] at this; exact Registers.condEq_one.1 this
    · have := h.memLR; rw [e] at this; exact condEqCap_one.1 this
    · exact TrieRoots.connect_iff.1 h.rootsBeforeL
    · exact TrieRoots.connect_iff.1 h.rootsAfterL
    · exact Metadata.connect_iff.1 h.metadataL
    · exact BlockHashes.connect_iff.1 h.hashesL
    · exact Extra.connect_iff.1 h.extraL
    · exact Registers.connect_iff.1 h.regsBeforeL
    · exact connectCap_iff.1 h.memBeforeL
    · have := h.rootsBeforeR; rw [e] at this; exact TrieRoots.condEq_one.1 this
    · have := h.rootsAfterR; rw [e] at this; exact TrieRoots.condEq_one.1 this
    · have := h.metadataR; rw [e] at this; exact Metadata.agree_of_condEq this
    · have := h.hashesR; rw [e] at this; exact BlockHashes.condEq_one.1 this
    · have := h.extraR; rw [e] at this; exact Extra.condEq_one.1 this
    · have := h.regsAfterR; rw [e] at this; exact Registers.condEq_one.1 this
    · have := h.memAfterR; rw [e] at this; exact condEqCap_one.1 this
  · refine ⟨l, hl.congr ?_ ?_ ?_ ?_ ?_ ?_ ?_ ?_ ?_⟩
    · exact TrieRoots.connect_iff.1 h.rootsBeforeL
    · exact TrieRoots.connect_iff.1 h.rootsAfterL
    · exact Metadata.connect_iff.1 h.metadataL
    · exact BlockHashes.connect_iff.1 h.hashesL
    · exact Extra.connect_iff.1 h.extraL
    · exact Registers.connect_iff.1 h.regsBeforeL
    · have := h.regsAfterD; rw [hd] at this; exact Registers.condEq_one.1 this
    · exact connectCap_iff.1 h.memBeforeL
    · have := h.memAfterD; rw [hd] at this; exact condEqCap_one.1 this

theorem PI.select_one (a b : PI) : PI.select 1 a b = a := by simp [PI.select, PV.select_one, sel_one]
theorem PI.select_zero (a b : PI) : PI.select 0 a b = b := by simp [PI.select, PV.select_zero, sel_zero]

theorem AggChild.pv_agg {c : AggChild} (h : c.isAgg = 1) : c.pv = c.agg.pv := by rw [AggChild.pv, h, PV.select_one]
theorem AggChild.pv_base {c : AggChild} (h : c.isAgg = 0) : c.pv = c.base.pv := by rw [AggChild.pv, h, PV.select_zero]
theorem DummyChild.pv_agg {c : DummyChild} (h : c.isAgg = 1) : c.pv = c.agg.pv := by rw [DummyChild.pv, h, PV.select_one]
theorem DummyChild.pv_real {c : DummyChild} (h : c.isAgg = 0) : c.pv = c.real.pv := by rw [DummyChild.pv, h, PV.select_zero]

theorem CompleteRun.of {S : Setup} {x : PV} (h : InitialFinal S x) (hc : connectCap x.memBefore S.initCap) : CompleteRun S x :=
  ⟨⟨h.pcBefore, h.kernelBefore, h.stackBefore, h.contextBefore, h.gasBefore⟩, connectCap_iff.1 hc,
    ⟨h.pcAfter, h.kernelAfter, h.stackAfter, h.contextAfter⟩⟩

theorem BatchRun.single {S : Setup} {b : PV} {l : List PV} (h : SegRun S l b) (hc : CompleteRun S b) : BatchRun S [b] b where
  proven := by simp; exact ⟨l, h⟩
  complete := by simp [hc]
  linked := by simp
  starts := ⟨b, by simp⟩
  ends := ⟨b, by simp⟩
  metadata := by simp
  hashes := by simp
  checkpointRoot := by simp
  burn := by simp

/-- The batch aggregation circuit, on children that stand for runs. -/
theorem BatchAgg.run {S : Setup} {pv : PV} {lhs rhs : AggChild} (h : BatchAgg S pv lhs rhs)
    (hl : ∃ l, BatchRun S l lhs.pv) (hr : ∃ r, BatchRun S r rhs.pv) : ∃ l, 2 ≤ l.length ∧ BatchRun S l pv := by
  obtain ⟨l, hl⟩ := hl
  obtain ⟨r, hr⟩ := hr
  obtain ⟨a, ha, ha1, ha2, ha3⟩ := hl.starts
  obtain ⟨b, hb, hb1, hb2, hb3⟩ := hr.ends
  obtain ⟨a', ha', ha1', ha2', ha3'⟩ := hr.starts
  obtain ⟨b', hb', hb1', hb2', hb3'⟩ := hl.ends
  have hne : l ≠ [] := by rintro rfl; simp at ha
  have hne' : r ≠ [] := by rintro rfl; simp at hb
  refine ⟨l ++ r, ?_, ?_, ?_, ?_, ⟨a, ?_, ?_, ?_, ?_⟩, ⟨b, ?_, ?_, ?_, ?_⟩, ?_, ?_, ?_, ?_⟩
  · have := List.length_pos_of_ne_nil hne; have := List.length_pos_of_ne_nil hne'; rw [List.length_append]; omega
  · intro s hs
    rcases List.mem_append.1 hs with h | h
    · exact hl.proven s h
    · exact hr.proven s h
  · intro s hs
    rcases List.mem_append.1 hs with h | h
    · exact hl.complete s h
    · exact hr.complete s h
  · rw [List.isChain_append]
    refine ⟨hl.linked, hr.linked, ?_⟩
    intro u hu v hv
    rw [hb'] at hu; rw [ha'] at hv
    cases Option.mem_some.1 hu; cases Option.mem_some.1 hv
    exact ⟨by rw [hb1', ha1', TrieRoots.connect_iff.1 h.rootsLR], by rw [hb2', ha2', h.extra.txnLR],
      by rw [hb3', ha3', h.extra.gasLR]⟩
  · simp [List.head?_append, ha]
  · rw [ha1, TrieRoots.connect_iff.1 h.rootsBefore]
  · rw [ha2, h.extra.txnBefore]
  · rw [ha3, h.extra.gasBefore]
  · simp [List.getLast?_append, hb]
  · rw [hb1, TrieRoots.connect_iff.1 h.rootsAfter]
  · rw [hb2, h.extra.txnAfter]
  · rw [hb3, h.extra.gasAfter]
  · intro s hs
    rcases List.mem_append.1 hs with k | k
    · rw [Metadata.connect_iff.1 h.metadataL]; exact hl.metadata s k
    · rw [Metadata.connect_iff.1 h.metadataR]; exact hr.metadata s k
  · intro s hs
    rcases List.mem_append.1 hs with k | k
    · rw [BlockHashes.connect_iff.1 h.hashesL]; exact hl.hashes s k
    · rw [BlockHashes.connect_iff.1 h.hashesR]; exact hr.hashes s k
  · intro s hs
    rcases List.mem_append.1 hs with k | k
    · rw [funext h.extra.rootL]; exact hl.checkpointRoot s k
    · rw [funext h.extra.rootR]; exact hr.checkpointRoot s k
  · intro hc s hs
    have e1 := connectBurn_iff.1 (h.burnLR hc)
    have e2 := connectBurn_iff.1 (h.burnR hc)
    rcases List.mem_append.1 hs with k | k
    · rw [e2, ← e1]; exact hl.burn hc s k
    · rw [e2]; exact hr.burn hc s k

/-- `connect_block_hashes` is the shift by one hash. -/
theorem ConnectHashes.shifted {a b : BlockHashes} (h : ConnectHashes a b) :
    List.ofFn b.prev = (List.ofFn a.prev).drop 8 ++ List.ofFn a.cur := by
  apply List.ext_getElem
  · simp only [List.length_append, List.length_drop, List.length_ofFn]
  · intro i h1 h2
    have h1' : i < 2048 := by rw [List.length_ofFn] at h1; exact h1
    by_cases hi : i < 2040
    · rw [List.getElem_append_left (by simp only [List.length_drop, List.length_ofFn]; omega)]
      simp only [List.getElem_ofFn, List.getElem_drop]
      rw [← h.shift i hi]
      congr 1
      exact Fin.ext (Nat.add_comm _ _)
    · rw [List.getElem_append_right (by simp only [List.length_drop, List.length_ofFn]; omega)]
      simp only [List.getElem_ofFn, List.length_drop, List.length_ofFn]
      have := h.last ⟨i - 2040, by omega⟩
      rw [show (⟨i, h1'⟩ : Fin 2048) = ⟨2040 + (⟨i - 2040, by omega⟩ : Fin 8).val, by simp only; omega⟩ from
        Fin.ext (by simp only; omega), ← this]

theorem BlockC.follows {S : Setup} {pv parent agg : PV} {c : F} (h : BlockC S pv c parent agg) : Follows parent agg where
  state := funext h.state
  number := by rw [h.number]; ring
  time := ⟨_, h.timestamp, by rw [ZMod.natCast_zmod_val]; ring⟩
  hashes := h.blockHashes.shifted

theorem BlockC.whole {S : Setup} {pv parent agg : PV} {c : F} (h : BlockC S pv c parent agg) (hb : ∃ l, BatchRun S l agg) :
    WholeBlock S agg where
  batches := hb
  txn := h.initial.txn
  gas := h.initial.gas
  txnTrie := funext h.initial.txns
  receiptTrie := funext h.initial.receipts
  gasUsed := h.gasUsed

theorem Follows.congr_left {a b c : PV} (h : Follows a b) (h1 : c.rootsAfter = a.rootsAfter) (h2 : c.metadata = a.metadata)
    (h3 : c.hashes = a.hashes) : Follows c b :=
  ⟨by rw [h1]; exact h.state, by rw [h2]; exact h.number, by rw [h2]; exact h.time, by rw [h3]; exact h.hashes⟩

/-- The block circuit, on a parent that stands for a chain and batches that stand for runs. -/
theorem BlockC.chain {S : Setup} {pv parent agg : PV} {c : F} (h : BlockC S pv c parent agg) (hb : ∃ l, BatchRun S l agg)
    (hp : c = 1 → ∃ bl, Chain S bl parent) : ∃ bl, Chain S bl pv := by
  have e1 := TrieRoots.connect_iff.1 h.rootsAfter
  have e2 := Metadata.connect_iff.1 h.metadata
  have e3 := BlockHashes.connect_iff.1 h.hashes
  have e4 := Extra.connect_iff.1 h.extra
  rcases h.bit with hc | hc
  · refine ⟨[agg], ?_, ?_, ⟨agg, by simp, ?_, ?_⟩, ⟨agg, by simp, e1.symm, e2.symm, e3.symm, e4.symm⟩, ?_, ?_⟩
    · intro b hm; rw [List.mem_singleton.1 hm]; exact h.whole hb
    · simp
    · funext i
      have := h.checkpoint.root i
      rw [hc, sub_zero, one_mul, sub_eq_zero] at this
      rw [this, e4]
    · funext i
      have := h.checkpoint.hash i
      rw [hc, sub_zero] at this
      exact condEq_one.1 this
    · intro b hm; rw [List.mem_singleton.1 hm, e4]
    · intro k b hm; rw [List.mem_singleton.1 hm]; exact (connectBurn_iff.1 (h.burn k)).symm
  · obtain ⟨bl, hbl⟩ := hp hc
    obtain ⟨a, ha, ha1, ha2⟩ := hbl.starts
    obtain ⟨b, hb', hb1, hb2, hb3, hb4⟩ := hbl.ends
    have hr : parent.extra.checkpointRoot = agg.extra.checkpointRoot := funext h.checkpointRoot
    refine ⟨bl ++ [agg], ?_, ?_, ⟨a, ?_, ?_, ha2⟩, ⟨agg, by simp, e1.symm, e2.symm, e3.symm, e4.symm⟩, ?_, ?_⟩
    · intro x hx
      rcases List.mem_append.1 hx with k | k
      · exact hbl.blocks x k
      · rw [List.mem_singleton.1 k]; exact h.whole hb
    · rw [List.isChain_append]
      refine ⟨hbl.linked, by simp, ?_⟩
      intro u hu v hv
      rw [hb'] at hu; cases Option.mem_some.1 hu
      simp at hv; subst hv
      exact h.follows.congr_left hb1 hb2 hb3
    · simp [List.head?_append, ha]
    · rw [ha1, hr, e4]
    · intro x hx
      rcases List.mem_append.1 hx with k | k
      · rw [hbl.checkpointRoot x k, hr, e4]
      · rw [List.mem_singleton.1 k, e4]
    · intro k x hx
      rcases List.mem_append.1 hx with m | m
      · rw [hbl.burn k x m, connectBurn_iff.1 (h.burnP k), connectBurn_iff.1 (h.burn k)]
      · rw [List.mem_singleton.1 m, connectBurn_iff.1 (h.burn k)]

/-- What acceptance under each of the four keys means. -/
structure Meaning (S : Setup) (owned : Bool) (vk : VK) (pi : PI) : Prop where
  root : vk = S.rootVK → S.segment pi.pv
  seg : vk = S.segVK → pi.vk = S.segVK → ∃ l, SegRun S l pi.pv
  batch : owned = true → vk = S.batchVK → pi.vk = S.batchVK → ∃ l, 2 ≤ l.length ∧ BatchRun S l pi.pv
  block : owned = true → vk = S.blockVK → pi.vk = S.blockVK → ∃ l, Chain S l pi.pv

theorem Valid.meaning {S : Setup} (hS : S.Distinct) {owned : Bool} {vk : VK} {pi : PI} (h : Valid S owned vk pi) :
    Meaning S owned vk pi := by
  induction h with
  | root pi h =>
    exact ⟨fun _ => h, fun k => absurd k hS.rs, fun _ k => absurd k hS.rb, fun _ k => absurd k hS.rk⟩
  | foreign vk pi h h1 h2 h3 h4 =>
    exact ⟨fun k => absurd k h1, fun k => absurd k h2, fun _ k => absurd k h3, fun _ k => absurd k h4⟩
  | seg pi lhs rhs h hlk hla hlb hrk hra hrb ila ilb ira irb =>
    refine ⟨fun k => absurd k.symm hS.rs, fun _ hv => h.run ?_ ?_, fun _ k => absurd k hS.sb, fun _ k => absurd k hS.sk⟩
    · rcases h.lhsBit with hb | hb
      · exact ⟨_, AggChild.pv_base hb ▸ SegRun.single ((ilb hb).root rfl)⟩
      · rw [AggChild.pv_agg hb]; exact (ila hb).seg hv (hlk.trans hv)
    · intro hd
      rcases h.rhsBit with hb | hb
      · have := (irb hb).root rfl
        rw [hd, PI.select_zero] at this
        exact ⟨_, DummyChild.pv_real hb ▸ SegRun.single this⟩
      · rw [DummyChild.pv_agg hb]; exact (ira hb).seg hv (hrk.trans hv)
  | batch pi lhs rhs h hlk hla hlb hlo hrk hra hrb hro ila ilb ira irb =>
    refine ⟨fun k => absurd k.symm hS.rb, fun k => absurd k.symm hS.sb, fun ho _ hv => h.run ?_ ?_, fun _ k => absurd k hS.bk⟩
    · rcases h.lhsBit with hb | hb
      · obtain ⟨l, hl⟩ := (ilb hb).seg rfl (hlo ho hb)
        rw [← AggChild.pv_base hb] at hl
        exact ⟨_, BatchRun.single hl (.of h.initialFinalL h.initCapL)⟩
      · rw [AggChild.pv_agg hb]; obtain ⟨l, -, hl⟩ := (ila hb).batch ho hv (hlk.trans hv); exact ⟨l, hl⟩
    · rcases h.rhsBit with hb | hb
      · obtain ⟨l, hl⟩ := (irb hb).seg rfl (hro ho hb)
        rw [← AggChild.pv_base hb] at hl
        exact ⟨_, BatchRun.single hl (.of h.initialFinalR h.initCapR)⟩
      · rw [AggChild.pv_agg hb]; obtain ⟨l, -, hl⟩ := (ira hb).batch ho hv (hrk.trans hv); exact ⟨l, hl⟩
  | block pi c parent agg h hpk hp ha hao ip ia =>
    refine ⟨fun k => absurd k.symm hS.rk, fun k => absurd k.symm hS.sk, fun _ k => absurd k.symm hS.bk, fun ho _ hv => h.chain ?_ ?_⟩
    · obtain ⟨l, -, hl⟩ := ia.batch ho rfl (hao ho); exact ⟨l, hl⟩
    · intro hc; exact (ip hc).block ho hv (hpk.trans hv)

end Verif.Recursion
