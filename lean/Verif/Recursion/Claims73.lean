import Verif.Recursion.Demo

/-! # C73-C76, C78, C83: what aggregated proofs stand for -/
namespace Verif.Recursion

open Verif.Stark (F)

/-! ## C73: an accepted segment aggregation proof stands for one uninterrupted execution -/

/-- The full property. -/
def C73_statement : Prop :=
  ∀ S : Setup, S.Distinct → ∀ pi : PI, Accepted S false S.segVK pi → ∃ l, FullSegRun S l pi.pv

/-- What holds: all but three metadata fields agree between the segments, and nothing is said of the burn address. This is about the
circuits as they are (and as they would be with the check of C78), whatever other circuits there are. -/
theorem C73_segments_contiguous_partial (S : Setup) (hS : S.Distinct) (owned : Bool) (pi : PI) (h : Accepted S owned S.segVK pi) :
    ∃ l, SegRun S l pi.pv :=
  (h.1.meaning hS).seg rfl h.2

/-- Three segments, proven one by one, and their aggregate. -/
example : ∃ pi, Accepted (demo (fun _ => True) true) false (demo (fun _ => True) true).segVK pi ∧
    ∃ a b c : PV, a ≠ b ∧ b ≠ c ∧ SegRun (demo (fun _ => True) true) [a, b, c] pi.pv := by
  let p : F → F → PV := fun i j => { demoPV 5 6 0 1 1 1 hashes1 demoHash with regsBefore := demoRegs i, regsAfter := demoRegs j }
  have h : FullSegRun (demo (fun _ => True) true) [p 10 11, p 11 12, p 12 20] (p 10 20) :=
    { proven := fun _ _ => trivial
      contiguous := by simp [p, demoPV, PV.zero]
      starts := ⟨p 10 11, rfl, rfl, rfl, rfl⟩
      ends := ⟨p 12 20, rfl, rfl, rfl⟩
      roots := by intro s hs; simp only [List.mem_cons, List.not_mem_nil, or_false] at hs; rcases hs with rfl | rfl | rfl <;> exact ⟨rfl, rfl⟩
      hashes := by intro s hs; simp only [List.mem_cons, List.not_mem_nil, or_false] at hs; rcases hs with rfl | rfl | rfl <;> rfl
      extra := by intro s hs; simp only [List.mem_cons, List.not_mem_nil, or_false] at hs; rcases hs with rfl | rfl | rfl <;> rfl
      metadata := by
        intro s hs; simp only [List.mem_cons, List.not_mem_nil, or_false] at hs
        rcases hs with rfl | rfl | rfl <;> exact Metadata.AgreeButBlob.refl _
      allMetadata := by intro s hs; simp only [List.mem_cons, List.not_mem_nil, or_false] at hs; rcases hs with rfl | rfl | rfl <;> rfl
      burn := by intro _ s hs; simp only [List.mem_cons, List.not_mem_nil, or_false] at hs; rcases hs with rfl | rfl | rfl <;> rfl }
  refine ⟨_, provable_segRun _ _ _ _ h (by
    intro s hs; simp only [List.mem_cons, List.not_mem_nil, or_false] at hs; rcases hs with rfl | rfl | rfl <;> rfl), _, _, _, ?_, ?_, h.toSegRun⟩
  · intro e; have := congrArg (fun x => x.regsBefore.pc) e; exact absurd (show (10 : F) = 11 from this) (by decide)
  · intro e; have := congrArg (fun x => x.regsBefore.pc) e; exact absurd (show (11 : F) = 12 from this) (by decide)

/-- The first and the second half of an execution; the second names another beacon root. -/
def blobLeft : PV := { demoPV 5 6 0 1 1 1 hashes1 demoHash with regsAfter := demoRegs 15 }
def blobRight : PV :=
  let p := demoPV 5 6 0 1 1 1 hashes1 demoHash
  { p with regsBefore := demoRegs 15, metadata := { p.metadata with beaconRoot := fun _ => 7 } }

/-- Segments of one transaction batch may be proven with different beacon roots (and blob gas), and still be aggregated. -/
theorem C73_violated_metadata : ¬ C73_statement := by
  intro H
  let seg : PV → Prop := fun s => s = blobLeft ∨ s = blobRight
  let S := demo seg false
  let pv : PV := { blobLeft with regsAfter := demoRegs 20 }
  have hv : Accepted S false S.segVK ⟨pv, S.segVK⟩ := by
    refine ⟨.seg _ (childOf S.segVK false ⟨blobLeft, S.segVK⟩) (dummyChildOf S.segVK false false ⟨blobRight, S.segVK⟩) ?_ rfl
      (fun h => by simp [childOf] at h) (fun _ => .root _ (Or.inl rfl)) rfl (fun h => by simp [dummyChildOf] at h)
      (fun _ => by simp only [dummyChildOf, bit_false, PI.select_zero]; exact .root _ (Or.inr rfl)), rfl⟩
    have hz : (1 : F) - (dummyChildOf S.segVK false false ⟨blobRight, S.segVK⟩).isDummy = 1 := by simp [dummyChildOf]
    constructor
    all_goals try simp only [childOf_pv, dummyChildOf_pv, hz]
    · exact bit_isBool false
    · exact bit_isBool false
    · exact bit_isBool false
    · exact TrieRoots.connect_iff.2 rfl
    · exact TrieRoots.connect_iff.2 rfl
    · exact Metadata.connect_iff.2 rfl
    · exact BlockHashes.connect_iff.2 rfl
    · exact Extra.connect_iff.2 rfl
    · exact Registers.connect_iff.2 rfl
    · exact connectCap_iff.2 rfl
    · exact TrieRoots.condEq_one.2 rfl
    · exact TrieRoots.condEq_one.2 rfl
    · exact fun h => absurd h (by decide)
    · exact fun h => absurd h (by decide)
    · simp [Metadata.condEq, Recursion.condEq_one, pv, blobLeft, blobRight]
    · exact BlockHashes.condEq_one.2 rfl
    · exact Extra.condEq_one.2 rfl
    · exact Registers.condEq_one.2 rfl
    · exact Registers.condEq_one.2 rfl
    · exact condEqCap_one.2 rfl
    · exact condEqCap_one.2 rfl
    · simp [dummyChildOf]
    · exact condEqCap_zero
    · exact Registers.condEq_zero
  obtain ⟨l, hl⟩ := H S (demo_distinct _ _) _ hv
  obtain ⟨b, hb, hb1, -⟩ := hl.ends
  have hm : b ∈ l := List.mem_of_getLast? hb
  rcases hl.proven b hm with rfl | rfl
  · have := congrArg Registers.pc hb1
    exact absurd (show (15 : F) = 20 from this) (by decide)
  · have := congrArg (fun m => m.beaconRoot 0) (hl.allMetadata _ hm)
    exact absurd (show (7 : F) = 0 from this) (by decide)

/-- Aggregated with a dummy, a segment gets whatever burn address the prover likes. -/
theorem C73_violated_burn (burn : Limbs 8) :
    ∃ (S : Setup) (pv : PV), S.Distinct ∧ S.cdk = true ∧ (∀ s, S.segment s → s.burn = fun _ => 0) ∧
      Accepted S false S.segVK ⟨{ pv with burn := burn }, S.segVK⟩ := by
  let S := demo (fun s => s.burn = fun _ => 0) true
  let s := demoPV 5 6 0 1 1 1 hashes1 demoHash
  refine ⟨S, s, demo_distinct _ _, rfl, fun _ h => h, ?_, rfl⟩
  refine .seg _ (childOf S.segVK false ⟨s, S.segVK⟩) (dummyChildOf S.segVK false true ⟨s, S.segVK⟩) ?_ rfl
    (fun h => by simp [childOf] at h) (fun _ => .root _ rfl) rfl (fun h => by simp [dummyChildOf] at h)
    (fun _ => by simp only [dummyChildOf, childOf, bit_true, PI.select_one]; exact .root _ rfl)
  have hz : (1 : F) - (dummyChildOf S.segVK false true ⟨s, S.segVK⟩).isDummy = 0 := by simp [dummyChildOf]
  constructor
  all_goals try simp only [childOf_pv, dummyChildOf_pv, hz]
  · exact bit_isBool false
  · exact bit_isBool false
  · exact bit_isBool true
  · exact TrieRoots.connect_iff.2 rfl
  · exact TrieRoots.connect_iff.2 rfl
  · exact Metadata.connect_iff.2 rfl
  · exact BlockHashes.connect_iff.2 rfl
  · exact Extra.connect_iff.2 rfl
  · exact Registers.connect_iff.2 rfl
  · exact connectCap_iff.2 rfl
  · exact TrieRoots.condEq_zero
  · exact TrieRoots.condEq_zero
  · exact fun _ => condEqBurn_zero
  · exact fun _ => condEqBurn_zero
  · exact Metadata.condEq_zero
  · exact BlockHashes.condEq_zero
  · exact Extra.condEq_zero
  · exact Registers.condEq_zero
  · exact Registers.condEq_zero
  · exact condEqCap_zero
  · exact condEqCap_zero
  · simp [childOf]
  · exact condEqCap_refl _ _
  · exact Registers.condEq_refl _ _

/-! ## C74: an accepted batch aggregation proof stands for consecutive complete runs of one block -/

/-- The full property, for the circuits as they are (`owned = false`) or with the check of C78 added. -/
def C74_statement (owned : Bool) : Prop :=
  ∀ S : Setup, S.Distinct → ∀ pi : PI, Accepted S owned S.batchVK pi → ∃ bs, FullBatchRun S bs pi.pv

/-- What holds, if proofs verified inside the circuit carry the key of their circuit (C78). -/
theorem C74_batches_linked_partial (S : Setup) (hS : S.Distinct) (pi : PI) (h : Accepted S true S.batchVK pi) :
    ∃ bs, 2 ≤ bs.length ∧ BatchRun S bs pi.pv :=
  (h.1.meaning hS).batch rfl rfl h.2

example : Accepted (demo (fun _ => True) true) true (demo (fun _ => True) true).batchVK
    ⟨demoPV 5 7 0 2 1 1 hashes1 demoHash, (demo (fun _ => True) true).batchVK⟩ :=
  demo_batches 5 6 7 1 1 hashes1 demoHash demoHash trivial trivial

/-- The first segment of a run of segments. -/
theorem SegRun.first {S : Setup} {l : List PV} {pv : PV} (h : SegRun S l pv) : ∃ s ∈ l, S.segment s :=
  let ⟨a, ha, _⟩ := h.starts
  ⟨a, List.mem_of_head? ha, h.proven a (List.mem_of_head? ha)⟩

/-- Two batches of a block may name different checkpoint hashes. -/
theorem C74_violated_checkpoint_hash : ¬ C74_statement true := by
  intro H
  let a := demoPV 5 6 0 1 1 1 hashes1 (fun _ => 3)
  let b := demoPV 6 7 1 2 1 1 hashes1 (fun _ => 4)
  let seg : PV → Prop := fun s => s = a ∨ s = b
  obtain ⟨bs, h⟩ := H (demo seg false) (demo_distinct _ _) _ (demo_batches (segment := seg) 5 6 7 1 1 hashes1 (fun _ => 3) (fun _ => 4) (Or.inl rfl) (Or.inr rfl))
  obtain ⟨x, hx, hx1, -⟩ := h.starts
  obtain ⟨l, hl⟩ := h.proven x (List.mem_of_head? hx)
  obtain ⟨s, hs, hseg⟩ := hl.first
  have e1 : s.rootsBefore = _ := (hl.roots s hs).1.trans hx1
  have e2 := (congrArg Extra.checkpointHash (hl.extra s hs)).trans (h.checkpointHash x (List.mem_of_head? hx))
  rcases hseg with rfl | rfl
  · exact absurd (show (3 : F) = 4 from congrFun e2 0) (by decide)
  · exact absurd (show (6 : F) = 5 from congrArg (fun r => r.state 0) e1) (by decide)

/-! ## C75: an accepted block proof stands for a chain of whole blocks starting at the checkpoint -/

/-- The full property. -/
def C75_statement (owned : Bool) : Prop :=
  ∀ S : Setup, S.Distinct → ∀ pi : PI, Accepted S owned S.blockVK pi → ∃ bl, FullChain S bl pi.pv

/-- What holds, if proofs verified inside the circuits carry the key of their circuit (C78). -/
theorem C75_chain_partial (S : Setup) (hS : S.Distinct) (pi : PI) (h : Accepted S true S.blockVK pi) : ∃ bl, Chain S bl pi.pv :=
  (h.1.meaning hS).block rfl rfl h.2

example : Accepted (demo (fun _ => True) true) true (demo (fun _ => True) true).blockVK
    ⟨blockPV (some (demoPV 5 7 0 2 1 1 hashes1 demoHash)) (demoPV 7 9 0 2 2 1 hashes2 demoHash), (demo (fun _ => True) true).blockVK⟩ :=
  demo_chain 1 1 demoHash trivial trivial trivial trivial

/-- With timestamps that are 32-bit numbers, no block is older than its predecessor. -/
theorem Follows.time_le {a b : PV} (h : Follows a b) (ha : a.metadata.timestamp.val < 2 ^ 32) :
    a.metadata.timestamp.val ≤ b.metadata.timestamp.val := by
  obtain ⟨d, hd, e⟩ := h.time
  rw [e, ZMod.val_add_of_lt]
  · exact Nat.le_add_right _ _
  · rw [ZMod.val_natCast_of_lt (by unfold Verif.Stark.P; omega)]; unfold Verif.Stark.P; omega

example : ∃ a b : PV, Follows a b ∧ a.metadata.timestamp.val < 2 ^ 32 :=
  ⟨_, _, (demo_follows (segment := fun _ => True) (cdk := true) 5 7 9 1 1 demoHash demoHash).toFollows, by show (1 : F).val < _; decide⟩

/-- Segments whose chain id is their block number, block 1 being the only one that can start at state root limbs 5. -/
def ownChainId (s : PV) : Prop := s.metadata.chainId = s.metadata.number ∧ (s.rootsBefore.state 0 = 5 → s.metadata.number = 1)

theorem BatchRun.first {S : Setup} {bs : List PV} {pv : PV} (h : BatchRun S bs pv) :
    ∃ s, S.segment s ∧ s.rootsBefore = pv.rootsBefore ∧ s.metadata.AgreeButBlob pv.metadata ∧ s.hashes = pv.hashes := by
  obtain ⟨x, hx, hx1, -⟩ := h.starts
  have hxm := List.mem_of_head? hx
  obtain ⟨l, hl⟩ := h.proven x hxm
  obtain ⟨s, hs, hseg⟩ := hl.first
  exact ⟨s, hseg, (hl.roots s hs).1.trans hx1, h.metadata x hxm ▸ hl.metadata s hs, (hl.hashes s hs).trans (h.hashes x hxm)⟩

/-- Blocks of different chains (chain ids 1 and 2) are accepted as one chain, even with the check of C78. -/
theorem C75_violated_chain_id : ¬ C75_statement true := by
  intro H
  let S := demo ownChainId false
  have five : ∀ x : F, x ≠ 5 → ∀ p : Prop, x = 5 → p := fun x h p e => absurd e h
  obtain ⟨bl, h⟩ := H S (demo_distinct _ _) _ (demo_chain (segment := ownChainId) (cdk := false) 1 2 demoHash
    ⟨rfl, fun _ => rfl⟩ ⟨rfl, five 6 (by decide) _⟩ ⟨rfl, five 7 (by decide) _⟩ ⟨rfl, five 8 (by decide) _⟩)
  obtain ⟨a, ha, ha1, -⟩ := h.starts
  have ham := List.mem_of_head? ha
  obtain ⟨bs, hb⟩ := (h.blocks a ham).batches
  obtain ⟨s, ⟨hs1, hs2⟩, hr, hm, -⟩ := hb.first
  have e1 : s.metadata.number = 1 := hs2 (by rw [hr, ha1]; rfl)
  have e2 : s.metadata.chainId = 2 := hm.chainId.trans (h.chainId a ham)
  rw [e1, e2] at hs1
  exact absurd (show (2 : F) = 1 from hs1) (by decide)

/-- The checkpoint hash shown by a proof of two blocks is whatever the prover likes, even with the check of C78. -/
theorem C75_violated_checkpoint_hash (h : Limbs 4) :
    ∃ S : Setup, S.Distinct ∧ (∀ s, S.segment s → s.extra.checkpointHash = demoHash ∨ s.extra.checkpointHash = h) ∧
      ∃ pi, Accepted S true S.blockVK pi ∧ pi.pv.extra.checkpointHash = h ∧
        ∀ bl, Chain S bl pi.pv → ∀ a, bl.head? = some a → a.extra.checkpointHash = demoHash := by
  let seg : PV → Prop := fun s =>
    s = demoPV 5 6 0 1 1 1 hashes1 demoHash ∨ s = demoPV 6 7 1 2 1 1 hashes1 demoHash ∨
    s = demoPV 7 8 0 1 2 1 hashes2 h ∨ s = demoPV 8 9 1 2 2 1 hashes2 h
  refine ⟨demo seg false, demo_distinct _ _, ?_, _, demo_chain (segment := seg) 1 1 h (Or.inl rfl) (Or.inr (Or.inl rfl))
    (Or.inr (Or.inr (Or.inl rfl))) (Or.inr (Or.inr (Or.inr rfl))), rfl, ?_⟩
  · rintro s (rfl | rfl | rfl | rfl)
    · exact Or.inl rfl
    · exact Or.inl rfl
    · exact Or.inr rfl
    · exact Or.inr rfl
  · intro bl hbl a ha
    obtain ⟨a', ha', h1, h2⟩ := hbl.starts
    rw [ha] at ha'; cases ha'
    obtain ⟨bs, hb⟩ := (hbl.blocks a (List.mem_of_head? ha)).batches
    obtain ⟨s, hs, hr, -, hh⟩ := hb.first
    rw [h2, ← hh]
    have hr5 : s.rootsBefore.state 0 = 5 := by rw [hr, h1]; rfl
    rcases hs with rfl | rfl | rfl | rfl
    · exact (demoHash_eq seg false).symm
    · exact absurd (show (6 : F) = 5 from hr5) (by decide)
    · exact absurd (show (7 : F) = 5 from hr5) (by decide)
    · exact absurd (show (8 : F) = 5 from hr5) (by decide)

/-- The trie roots before, shown by a proof of one block, are whatever the prover likes, even with the check of C78. -/
theorem C75_violated_roots_before (r : TrieRoots) :
    ∃ S : Setup, S.Distinct ∧ ∃ pi, Accepted S true S.blockVK pi ∧ pi.pv.rootsBefore = r ∧
      ∀ bl, Chain S bl pi.pv → ∀ a, bl.head? = some a → a.rootsBefore.state = fun _ => 5 := by
  let S := demo (fun _ => True) false
  let agg : PI := ⟨demoPV 5 7 0 2 1 1 hashes1 demoHash, S.batchVK⟩
  have ha : Accepted S true S.batchVK agg := demo_batches 5 6 7 1 1 hashes1 demoHash demoHash trivial trivial
  obtain ⟨f1, f2, f3, f4, f5, f6, f7⟩ := dummyParent_facts S.cdk agg.pv
  refine ⟨S, demo_distinct _ _, ⟨{ agg.pv with rootsBefore := r }, S.blockVK⟩, ⟨?_, rfl⟩, rfl, ?_⟩
  · refine .block _ 0 ⟨{ (dummyParent S agg.pv).pv with rootsBefore := r }, S.blockVK⟩ agg ?_ rfl (fun h => absurd h (by decide)) ha.1
      (fun _ => rfl)
    exact
      { bit := Or.inl rfl
        rootsBefore := TrieRoots.connect_iff.2 rfl
        rootsAfter := TrieRoots.connect_iff.2 rfl
        metadata := Metadata.connect_iff.2 rfl
        hashes := BlockHashes.connect_iff.2 rfl
        extra := Extra.connect_iff.2 rfl
        timestamp := by
          show (agg.pv.metadata.timestamp - (dummyParent S agg.pv).pv.metadata.timestamp).val < 2 ^ 32
          rw [show (dummyParent S agg.pv).pv.metadata.timestamp = 0 from f6, sub_zero]; show (1 : F).val < _; decide
        burnP := fun h => absurd h (by decide)
        burn := fun _ => connectBurn_iff.2 rfl
        state := fun i => congrFun f2 i
        checkpointRoot := fun i => congrFun f4 i
        number := f5
        initial := ⟨rfl, rfl, fun _ => rfl, fun _ => rfl⟩
        gasUsed := rfl
        checkpoint := ⟨fun i => by show _ * ((5 : F) - 5) = 0; rw [sub_self, mul_zero], fun i => by
          have h : agg.pv.extra.checkpointHash i = S.hash (List.ofFn agg.pv.hashes.prev) i := congrFun (demoHash_eq (fun _ => True) false) i
          show condEq _ _ _; rw [h, condEq, sub_self, mul_zero]⟩
        blockHashes := f7 }
  · intro bl hbl a ha'
    obtain ⟨a', h1, h2, -⟩ := hbl.starts
    rw [ha'] at h1; cases h1
    exact h2

/-! ## C76: the wrapped proof -/

/-- The full property. -/
def C76_statement (owned : Bool) : Prop :=
  ∀ S : Setup, S.Distinct → ∀ f : FinalPV, WrapperValid S owned f → ∃ bl, FullyDescribes S f bl

/-- What holds: the final public values describe the two ends of a chain, except that only the last block is known to be on the
named chain and the checkpoint hash is tied to the first block only if there is just one block. -/
theorem C76_final_values_partial (S : Setup) (hS : S.Distinct) (f : FinalPV) (h : WrapperValid S true f) :
    ∃ bl, Describes S f bl ∧ ∀ b, bl = [b] → FullyDescribes S f bl := by
  obtain ⟨p, hv, hk, hc⟩ := h
  obtain ⟨bl, h⟩ := C75_chain_partial S hS p ⟨hv, hk rfl⟩
  have e1 : f.checkpointRoot = p.pv.extra.checkpointRoot := funext hc.checkpoint
  have e2 : f.newRoot = p.pv.rootsAfter.state := funext hc.rootAfter
  have e3 : f.newHash = S.hash ((List.ofFn p.pv.hashes.prev).drop 8 ++ List.ofFn p.pv.hashes.cur) := funext hc.newHash
  have e4 : f.checkpointHash = p.pv.extra.checkpointHash := funext hc.checkpointHash
  have hd : Describes S f bl := by
    refine ⟨h.blocks, h.linked, ?_, ?_⟩
    · obtain ⟨a, ha, ha1, -⟩ := h.starts
      exact ⟨a, ha, by rw [ha1, e1]⟩
    · obtain ⟨b, hb, hb1, hb2, hb3, -⟩ := h.ends
      exact ⟨b, hb, by rw [hb1, e2], by rw [hb2, hc.chainId], by rw [hb3, e3]⟩
  refine ⟨bl, hd, ?_⟩
  rintro b rfl
  obtain ⟨a, ha, -, ha2⟩ := h.starts
  obtain ⟨c, hcc, -, hc2, -, hc4⟩ := h.ends
  obtain rfl : b = a := by simpa using ha
  obtain rfl : b = c := by simpa using hcc
  refine ⟨hd, ?_, ?_⟩
  · intro x hx
    rw [List.mem_singleton.1 hx, hc2, hc.chainId]
  · intro x hx
    obtain rfl : b = x := by simpa using hx
    rw [← ha2, hc4, e4]

example : WrapperValid (demo (fun _ => True) true) true (finalPV (demo (fun _ => True) true)
    (blockPV (some (demoPV 5 7 0 2 1 1 hashes1 demoHash)) (demoPV 7 9 0 2 2 1 hashes2 demoHash))) :=
  proveWrapper (demo_chain 1 1 demoHash trivial trivial trivial trivial) rfl

/-- The checkpoint hash of a wrapped proof of two blocks is whatever the prover likes; likewise the chain id of the first block. -/
theorem C76_violated : ¬ C76_statement true := by
  intro H
  let seg : PV → Prop := fun s => s.rootsBefore.state 0 = 5 → s.hashes = hashes1
  let ck : Limbs 4 := fun i => 1 + demoHash i
  have five : ∀ x : F, x ≠ 5 → ∀ p : Prop, x = 5 → p := fun x h p e => absurd e h
  have hw := proveWrapper (S := demo seg false) (demo_chain (segment := seg) (cdk := false) (owned := true) 1 1 ck
    (fun _ => rfl) (five 6 (by decide) _) (five 7 (by decide) _) (five 8 (by decide) _)) rfl
  obtain ⟨bl, h⟩ := H (demo seg false) (demo_distinct _ _) _ hw
  obtain ⟨a, ha, ha1⟩ := h.starts
  obtain ⟨bs, hb⟩ := (h.blocks a (List.mem_of_head? ha)).batches
  obtain ⟨s, hs, hr, -, hh⟩ := hb.first
  have e : s.hashes = hashes1 := hs (by rw [hr, ha1]; rfl)
  have := congrFun (h.checkpointHash a ha) 0
  rw [← hh, e, ← demoHash_eq] at this
  have : demoHash 0 = 1 + demoHash 0 := this
  exact absurd (left_eq_add.1 (this.trans (add_comm _ _))) one_ne_zero

/-! ## C78: proofs verified inside a proof come from the intended circuits -/

/-- The same setup without anybody else's circuits. -/
def Setup.closed (S : Setup) : Setup := { S with foreign := fun _ _ => False }

/-- The full property: a proof accepted for one of the circuits could have been made with the crate's circuits only. -/
def C78_statement (owned : Bool) : Prop :=
  ∀ S : Setup, S.Distinct → ∀ vk pi, vk = S.segVK ∨ vk = S.batchVK ∨ vk = S.blockVK → Accepted S owned vk pi → Accepted S.closed owned vk pi

theorem SegAgg.closed {S : Setup} {pv : PV} {lhs : AggChild} {rhs : DummyChild} (h : SegAgg S pv lhs rhs) : SegAgg S.closed pv lhs rhs := by
  cases h; constructor <;> assumption
theorem InitialFinal.closed {S : Setup} {x : PV} (h : InitialFinal S x) : InitialFinal S.closed x := by
  cases h; constructor <;> assumption
theorem BatchAgg.closed {S : Setup} {pv : PV} {lhs rhs : AggChild} (h : BatchAgg S pv lhs rhs) : BatchAgg S.closed pv lhs rhs := by
  obtain ⟨h1, h2, h3, h4, h5, h6, h7, h8, h9, h10, h11, h12, h13, h14, h15, h16, h17, h18⟩ := h
  exact ⟨h1, h2, h3, h4, h5, h6, h7, h8, h9, h10, h11, h12, h13, h14, h15.closed, h16.closed, h17, h18⟩
theorem BlockC.closed {S : Setup} {pv parent agg : PV} {c : F} (h : BlockC S pv c parent agg) : BlockC S.closed pv c parent agg := by
  obtain ⟨h1, h2, h3, h4, h5, h6, h7, h8, h9, h10, h11, h12, ⟨i1, i2, i3, i4⟩, h14, ⟨j1, j2⟩, h16⟩ := h
  exact ⟨h1, h2, h3, h4, h5, h6, h7, h8, h9, h10, h11, h12, ⟨i1, i2, i3, i4⟩, h14, ⟨j1, j2⟩, h16⟩

/-- What is known of the proofs that can occur below an accepted one. -/
structure Clean (S : Setup) (owned : Bool) (vk : VK) (pi : PI) : Prop where
  root : vk = S.rootVK → Valid S.closed owned S.rootVK pi
  seg : vk = S.segVK → pi.vk = S.segVK → Valid S.closed owned S.segVK pi
  batch : owned = true → vk = S.batchVK → pi.vk = S.batchVK → Valid S.closed owned S.batchVK pi
  block : owned = true → vk = S.blockVK → pi.vk = S.blockVK → Valid S.closed owned S.blockVK pi

theorem Valid.clean {S : Setup} (hS : S.Distinct) {owned : Bool} {vk : VK} {pi : PI} (h : Valid S owned vk pi) : Clean S owned vk pi := by
  induction h with
  | root pi h =>
    exact ⟨fun _ => .root (S := S.closed) pi h, fun k => absurd k hS.rs, fun _ k => absurd k hS.rb, fun _ k => absurd k hS.rk⟩
  | foreign vk pi h h1 h2 h3 h4 =>
    exact ⟨fun k => absurd k h1, fun k => absurd k h2, fun _ k => absurd k h3, fun _ k => absurd k h4⟩
  | seg pi lhs rhs h hlk hla hlb hrk hra hrb ila ilb ira irb =>
    refine ⟨fun k => absurd k.symm hS.rs, fun _ hv => ?_, fun _ k => absurd k hS.sb, fun _ k => absurd k hS.sk⟩
    exact .seg (S := S.closed) pi lhs rhs h.closed hlk (fun hb => hv ▸ (ila hb).seg hv (hlk.trans hv)) (fun hb => (ilb hb).root rfl) hrk
      (fun hb => hv ▸ (ira hb).seg hv (hrk.trans hv)) (fun hb => (irb hb).root rfl)
  | batch pi lhs rhs h hlk hla hlb hlo hrk hra hrb hro ila ilb ira irb =>
    refine ⟨fun k => absurd k.symm hS.rb, fun k => absurd k.symm hS.sb, fun ho _ hv => ?_, fun _ k => absurd k hS.bk⟩
    exact .batch (S := S.closed) pi lhs rhs h.closed hlk (fun hb => hv ▸ (ila hb).batch ho hv (hlk.trans hv))
      (fun hb => (ilb hb).seg rfl (hlo ho hb)) hlo hrk (fun hb => hv ▸ (ira hb).batch ho hv (hrk.trans hv))
      (fun hb => (irb hb).seg rfl (hro ho hb)) hro
  | block pi c parent agg h hpk hp ha hao ip ia =>
    refine ⟨fun k => absurd k.symm hS.rk, fun k => absurd k.symm hS.sk, fun _ k => absurd k.symm hS.bk, fun ho _ hv => ?_⟩
    exact .block (S := S.closed) pi c parent agg h.closed hpk (fun hc => hv ▸ (ip hc).block ho hv (hpk.trans hv))
      (ia.batch ho rfl (hao ho)) hao

/-- Segment aggregation as it is, and the other circuits if they checked the keys of the proofs they verify. -/
theorem C78_intended_circuits_partial (S : Setup) (hS : S.Distinct) :
    (∀ owned pi, Accepted S owned S.segVK pi → Accepted S.closed owned S.segVK pi) ∧ C78_statement true := by
  refine ⟨fun owned pi h => ⟨(h.1.clean hS).seg rfl h.2, h.2⟩, ?_⟩
  intro S hS vk pi hvk h
  rcases hvk with rfl | rfl | rfl
  · exact ⟨(h.1.clean hS).seg rfl h.2, h.2⟩
  · exact ⟨(h.1.clean hS).batch rfl rfl h.2, h.2⟩
  · exact ⟨(h.1.clean hS).block rfl rfl h.2, h.2⟩

/-- With the circuits as they are, one foreign circuit of the right shape that accepts everything is enough to make an accepted block proof
from any state root to any other, without a single proven segment. -/
theorem C78_violated_forgery : ∃ S : Setup, S.Distinct ∧ (∀ s, ¬ S.segment s) ∧
    ∀ a b : Limbs 8, ∃ pi, Accepted S false S.blockVK pi ∧ pi.pv.rootsBefore.state = a ∧ pi.pv.rootsAfter.state = b ∧
      WrapperValid S false (finalPV S pi.pv) := by
  let S : Setup := { demo (fun _ => False) true with foreign := fun _ _ => True }
  have hS := demo_distinct (fun _ => False) true
  refine ⟨S, ⟨hS.rs, hS.rb, hS.rk, hS.sb, hS.sk, hS.bk⟩, fun _ h => h, fun a b => ?_⟩
  let e : Extra := ⟨a, demoHash, 0, 0, 0, 0⟩
  let mid : TrieRoots := ⟨b, fun _ => 0, fun _ => 0⟩
  let x : PV := { demoPV 0 0 0 0 1 1 hashes1 demoHash with extra := e, rootsBefore := ⟨a, fun _ => 0, fun _ => 0⟩, rootsAfter := mid }
  let y : PV := { demoPV 0 0 0 0 1 1 hashes1 demoHash with extra := e, rootsBefore := mid, rootsAfter := mid }
  let K : VK := fun _ => 9
  have hK : ∀ p, Valid S false K p := fun p =>
    .foreign K p trivial (const_ne (a := 9) (b := 0) (by decide)) (const_ne (a := 9) (b := 1) (by decide))
      (const_ne (a := 9) (b := 2) (by decide)) (const_ne (a := 9) (b := 3) (by decide))
  have hb : Valid S false S.batchVK ⟨aggBatchPV x y, K⟩ :=
    proveBatch (l := ⟨x, K⟩) (r := ⟨y, K⟩) (la := true) (ra := true) ⟨rfl, rfl, rfl, rfl, rfl, rfl, fun _ => rfl, rfl⟩
      ⟨⟨rfl, rfl, rfl, rfl, rfl⟩, rfl, ⟨rfl, rfl, rfl, rfl⟩⟩ ⟨⟨rfl, rfl, rfl, rfl, rfl⟩, rfl, ⟨rfl, rfl, rfl, rfl⟩⟩ ⟨hK _, rfl⟩ ⟨hK _, rfl⟩
  have hhash : ∀ l, (demo (fun _ => False) true).hash l = S.hash l := fun _ => rfl
  have hblock := proveBlock_first (S := S) (owned := false) hb (fun h => absurd h (by decide)) ⟨rfl, rfl, rfl, rfl, rfl⟩ rfl
    ((demoHash_eq (fun _ => False) true).trans (hhash _))
    (by show (1 : F).val < 2 ^ 32; decide)
  exact ⟨_, hblock, rfl, rfl, proveWrapper hblock rfl⟩

theorem C78_violated : ¬ C78_statement false := by
  intro H
  obtain ⟨S, hS, hn, h⟩ := C78_violated_forgery
  obtain ⟨pi, hpi, -⟩ := h (fun _ => 0) (fun _ => 1)
  have hc := (H S hS S.blockVK pi (Or.inr (Or.inr rfl)) hpi).1
  -- below an accepted block there is a batch, below that a leaf, and leaves are segments
  have leaf : ∀ vk p, Valid S.closed false vk p → False := by
    intro vk p hv
    induction hv with
    | root p h => exact hn _ h
    | foreign vk p h => exact h
    | seg p lhs rhs h hlk hla hlb hrk hra hrb ila ilb ira irb =>
      rcases h.lhsBit with hb | hb
      · exact ilb hb
      · exact ila hb
    | batch p lhs rhs h hlk hla hlb hlo hrk hra hrb hro ila ilb ira irb =>
      rcases h.lhsBit with hb | hb
      · exact ilb hb
      · exact ila hb
    | block p c parent agg h hpk hp ha hao ip ia => exact ia
  exact leaf _ _ hc

/-! ## C83: whatever fits together can be proven -/

/-- Honest provers succeed: every run of segments has an accepted aggregation proof, any two or more accepted complete batches that fit
together have one, with the public values `prove_batch_aggregation` computes, and any accepted blocks that fit together have an accepted
block proof, with the public values `prove_block` computes. The circuits are those of the code. -/
theorem C83_completeness (S : Setup) (owned : Bool) :
    (∀ l pv, FullSegRun S l pv → (∀ s ∈ l, s.burn = pv.burn) → Accepted S owned S.segVK ⟨pv, S.segVK⟩) ∧
    (∀ a b bs, (a :: b :: bs).IsChain (FitsBatch S) →
      (∀ x ∈ a :: b :: bs, Accepted S owned S.segVK ⟨x, S.segVK⟩ ∧ CompleteRun S x) →
      Accepted S owned S.batchVK ⟨(b :: bs).foldl aggBatchPV a, S.batchVK⟩) ∧
    (∀ a bs, (a :: bs).IsChain (FitsBlock S) → (∀ b ∈ a :: bs, Accepted S owned S.batchVK ⟨b, S.batchVK⟩ ∧ WholeBlock S b) →
      a.rootsBefore.state = a.extra.checkpointRoot → a.extra.checkpointHash = S.hash (List.ofFn a.hashes.prev) →
      a.metadata.timestamp.val < 2 ^ 32 →
      Accepted S owned S.blockVK ⟨bs.foldl (fun p b => blockPV (some p) b) (blockPV none a), S.blockVK⟩) :=
  ⟨provable_segRun S owned, provable_batches S owned, provable_chain S owned⟩

example : ∃ a b, [a, b].IsChain (FitsBlock (demo (fun _ => True) true)) ∧ (∀ x ∈ [a, b], WholeBlock (demo (fun _ => True) true) x) :=
  ⟨demoPV 5 7 0 2 1 1 hashes1 demoHash, demoPV 7 9 0 2 2 1 hashes2 demoHash,
    by simp only [List.isChain_cons_cons, List.isChain_singleton, and_true]; exact demo_follows .., by
      intro x hx
      simp only [List.mem_cons, List.not_mem_nil, or_false] at hx
      rcases hx with rfl | rfl
      · exact demo_whole 5 6 7 _ _ _ demoHash _ trivial trivial
      · exact demo_whole 7 8 9 _ _ _ demoHash _ trivial trivial⟩

end Verif.Recursion
