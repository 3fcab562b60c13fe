import Verif.Recursion.Prover

/-! # A small chain: two blocks of two batches, used by the examples and the counterexamples beside the theorems -/
namespace Verif.Recursion

open Verif.Stark (F)

/-- A setup with four different keys in which `segment` says which segments are proven. -/
def demo (segment : PV → Prop) (cdk : Bool) : Setup where
  rootVK := fun _ => 0
  segVK := fun _ => 1
  batchVK := fun _ => 2
  blockVK := fun _ => 3
  segment := segment
  foreign := fun _ _ => False
  hash := fun l _ => l.sum
  mainLabel := 10
  haltLabel := 20
  initCap := fun _ _ => 0
  emptyRoot := fun _ => 0
  cdk := cdk

theorem const_ne {a b : F} (h : a ≠ b) : (fun _ => a : VK) ≠ fun _ => b := fun k => h (congrFun k 0)

theorem demo_distinct (segment : PV → Prop) (cdk : Bool) : (demo segment cdk).Distinct where
  rs := const_ne (a := 0) (b := 1) (by decide)
  rb := const_ne (a := 0) (b := 2) (by decide)
  rk := const_ne (a := 0) (b := 3) (by decide)
  sb := const_ne (a := 1) (b := 2) (by decide)
  sk := const_ne (a := 1) (b := 3) (by decide)
  bk := const_ne (a := 2) (b := 3) (by decide)

/-- Registers in kernel mode with an empty stack. -/
def demoRegs (pc : F) : Registers := ⟨pc, 1, 0, fun _ => 0, 0, 0⟩

/-- A batch of one segment: state root limbs `s0` to `s1`, transactions `t0` to `t1` (with transaction and receipt trie root limbs the
same numbers), in block `num` of chain `chain` with checkpoint root limbs 5. -/
def demoPV (s0 s1 t0 t1 num chain : F) (hs : BlockHashes) (ck : Limbs 4) : PV :=
  { PV.zero with
    rootsBefore := ⟨fun _ => s0, fun _ => t0, fun _ => t0⟩
    rootsAfter := ⟨fun _ => s1, fun _ => t1, fun _ => t1⟩
    metadata := { PV.zero.metadata with number := num, timestamp := num, chainId := chain }
    hashes := hs
    extra := { checkpointRoot := fun _ => 5, checkpointHash := ck, txnBefore := t0, txnAfter := t1, gasBefore := 0, gasAfter := 0 }
    regsBefore := demoRegs 10
    regsAfter := demoRegs 20 }

/-- The hashes around block 1: nothing before it, its own hash has limbs 1. -/
def hashes1 : BlockHashes := ⟨fun _ => 0, fun _ => 1⟩
/-- The hashes around block 2. -/
def hashes2 : BlockHashes := ⟨fun i => if i.val < 2040 then 0 else 1, fun _ => 2⟩

theorem hashes_connect : ConnectHashes hashes1 hashes2 :=
  ⟨fun k h => by simp [hashes1, hashes2, h], fun i => by simp [hashes1, hashes2]⟩

section
variable {segment : PV → Prop} {cdk : Bool} {owned : Bool}

theorem demo_complete (s0 s1 t0 t1 num chain : F) (hs : BlockHashes) (ck : Limbs 4) :
    CompleteRun (demo segment cdk) (demoPV s0 s1 t0 t1 num chain hs ck) :=
  ⟨⟨rfl, rfl, rfl, rfl, rfl⟩, rfl, ⟨rfl, rfl, rfl, rfl⟩⟩

theorem demo_segAgg {s : PV} (h : segment s) : Accepted (demo segment cdk) owned (demo segment cdk).segVK ⟨s, (demo segment cdk).segVK⟩ := by
  have := proveSeg_dummy (S := demo segment cdk) (owned := owned) (l := ⟨s, (demo segment cdk).segVK⟩) s (.root _ h)
  rwa [show aggSegPV s s true = s by simp [aggSegPV]] at this

theorem demo_fits (s0 s1 s2 t0 t1 t2 num chain : F) (hs : BlockHashes) (ck ck' : Limbs 4) :
    FitsBatch (demo segment cdk) (demoPV s0 s1 t0 t1 num chain hs ck) (demoPV s1 s2 t1 t2 num chain hs ck') :=
  ⟨rfl, rfl, rfl, rfl, rfl, rfl, fun _ => rfl, rfl⟩

/-- A block of two batches. The checkpoint hash of the block is the second batch's. -/
theorem demo_batches (s0 s1 s2 num chain : F) (hs : BlockHashes) (ck ck' : Limbs 4)
    (h1 : segment (demoPV s0 s1 0 1 num chain hs ck)) (h2 : segment (demoPV s1 s2 1 2 num chain hs ck')) :
    Accepted (demo segment cdk) owned (demo segment cdk).batchVK ⟨demoPV s0 s2 0 2 num chain hs ck', (demo segment cdk).batchVK⟩ :=
  provable_batches (demo segment cdk) owned (demoPV s0 s1 0 1 num chain hs ck) (demoPV s1 s2 1 2 num chain hs ck') []
    (by simp only [List.isChain_cons_cons, List.isChain_singleton, and_true]; exact demo_fits ..)
    (by
      intro x hx
      simp only [List.mem_cons, List.not_mem_nil, or_false] at hx
      rcases hx with rfl | rfl
      · exact ⟨demo_segAgg h1, demo_complete ..⟩
      · exact ⟨demo_segAgg h2, demo_complete ..⟩)

theorem demo_whole (s0 s1 s2 num chain : F) (hs : BlockHashes) (ck ck' : Limbs 4)
    (h1 : segment (demoPV s0 s1 0 1 num chain hs ck)) (h2 : segment (demoPV s1 s2 1 2 num chain hs ck')) :
    WholeBlock (demo segment cdk) (demoPV s0 s2 0 2 num chain hs ck') where
  batches := by
    obtain ⟨l, -, h⟩ := (demo_batches (cdk := cdk) (owned := true) s0 s1 s2 num chain hs ck ck' h1 h2).1.meaning (demo_distinct _ _)
      |>.batch rfl rfl rfl
    exact ⟨l, h⟩
  txn := rfl
  gas := rfl
  txnTrie := rfl
  receiptTrie := rfl
  gasUsed := rfl

theorem demo_follows (s0 s1 s2 : F) (c1 c2 : F) (ck1 ck2 : Limbs 4) :
    FitsBlock (demo segment cdk) (demoPV s0 s1 0 2 1 c1 hashes1 ck1) (demoPV s1 s2 0 2 2 c2 hashes2 ck2) where
  state := rfl
  number := by show (2 : F) = 1 + 1; norm_num
  time := ⟨1, by norm_num, by show (2 : F) = 1 + ((1 : ℕ) : F); norm_num⟩
  hashes := hashes_connect.shifted
  checkpointRoot := rfl
  burn := fun _ => rfl

/-- The hash of the 256 hashes before block 1. -/
def demoHash : Limbs 4 := fun _ => (List.ofFn hashes1.prev).sum

/-- Two blocks, on chains `c1` and `c2`; the last batch of the second block shows the checkpoint hash `ck`. -/
theorem demo_chain (c1 c2 : F) (ck : Limbs 4)
    (h11 : segment (demoPV 5 6 0 1 1 c1 hashes1 demoHash)) (h12 : segment (demoPV 6 7 1 2 1 c1 hashes1 demoHash))
    (h21 : segment (demoPV 7 8 0 1 2 c2 hashes2 ck)) (h22 : segment (demoPV 8 9 1 2 2 c2 hashes2 ck)) :
    Accepted (demo segment cdk) owned (demo segment cdk).blockVK
      ⟨blockPV (some (demoPV 5 7 0 2 1 c1 hashes1 demoHash)) (demoPV 7 9 0 2 2 c2 hashes2 ck), (demo segment cdk).blockVK⟩ :=
  provable_chain (demo segment cdk) owned (demoPV 5 7 0 2 1 c1 hashes1 demoHash) [demoPV 7 9 0 2 2 c2 hashes2 ck]
    (by simp only [List.isChain_cons_cons, List.isChain_singleton, and_true]; exact demo_follows ..)
    (by
      intro b hb
      simp only [List.mem_cons, List.not_mem_nil, or_false] at hb
      rcases hb with rfl | rfl
      · exact ⟨demo_batches _ _ _ _ _ _ _ _ h11 h12, demo_whole _ _ _ _ _ _ _ _ h11 h12⟩
      · exact ⟨demo_batches _ _ _ _ _ _ _ _ h21 h22, demo_whole _ _ _ _ _ _ _ _ h21 h22⟩)
    rfl rfl (by show (1 : F).val < 2 ^ 32; decide)

end

theorem demo_hash (segment : PV → Prop) (cdk : Bool) (l : List F) : (demo segment cdk).hash l = fun _ => l.sum := rfl

theorem demoHash_eq (segment : PV → Prop) (cdk : Bool) : demoHash = (demo segment cdk).hash (List.ofFn hashes1.prev) := by
  rw [demo_hash]; delta demoHash; with_reducible rfl

attribute [irreducible] demoHash

end Verif.Recursion
