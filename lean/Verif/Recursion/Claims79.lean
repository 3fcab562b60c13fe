import Verif.Recursion.Layout

/-! # C79: public values survive the way into a proof and out of it -/
namespace Verif.Recursion

open Verif.Stark (F P)

/-- Public values as the provers make them: 256 block hashes, caps of 16 hashes of canonical elements, a burn address exactly in builds that
have one. -/
structure NPV.Usual (ft : Features) (pv : NPV) : Prop where
  hashes : pv.hashes.prev.length = 256
  burn : pv.burn.isSome = ft.cdk
  before : pv.memBefore.length = 16 ∧ ∀ h ∈ pv.memBefore, ∀ j, (h j).toNat < P
  after : pv.memAfter.length = 16 ∧ ∀ h ∈ pv.memAfter, ∀ j, (h j).toNat < P

/-- The full property: whatever was in the witness before, public values written to the targets are read back from the public inputs. -/
def C79_statement : Prop :=
  ∀ (ft : Features) (w l : PV) (pv : NPV), pv.Usual ft → setPV ft w pv = some l → readPV ft (asPis (l.toPis ft.cdk)) = pv

theorem sub_slice (pis : ℕ → F) (o n i : ℕ) (h : 8 * i + 8 ≤ n) :
    slice pis (o + 8 * i) 8 = fun k : Fin 8 => slice pis o n ⟨8 * i + k, by omega⟩ := by
  funext k; simp only [slice, Nat.add_assoc]

theorem readRoots_eq {pis : ℕ → F} {o : ℕ} {r : NRoots} (h1 : slice pis o 8 = u256Limbs (h2u r.state))
    (h2 : slice pis (o + 8) 8 = u256Limbs (h2u r.txns)) (h3 : slice pis (o + 16) 8 = u256Limbs (h2u r.receipts)) : readRoots pis o = r := by
  rw [readRoots, h1, h2, h3, getH256_h2u, getH256_h2u, getH256_h2u]

theorem setRegisters_eq {r : NRegisters} {l : Registers} (h : setRegisters r = some l) :
    scalar l.pc = r.pc ∧ scalar l.isKernel = r.isKernel ∧ scalar l.stackLen = r.stackLen ∧ l.stackTop = u256Limbs r.stackTop ∧
      scalar l.context = r.context ∧ scalar l.gasUsed = r.gasUsed := by
  simp only [setRegisters, Option.bind_eq_bind, Option.bind_eq_some_iff, Option.some.injEq] at h
  obtain ⟨a, ha, b, hb, c, hc, d, hd, e, he, rfl⟩ := h
  exact ⟨(u256ToU32_val ha).2.2, (u256ToU32_val hb).2.2, (u256ToU32_val hc).2.2, rfl, (u256ToU32_val hd).2.2, (u256ToU32_val he).2.2⟩

theorem setMemCap_eq {w l : MemCap} {c : List (Fin 4 → U256)} (h : setMemCap w c = some l) (hl : c.length = 16)
    (hc : ∀ h ∈ c, ∀ j, (h j).toNat < P) : (List.ofFn fun i : Fin 16 => fun j => scalar (l i j)) = c := by
  unfold setMemCap at h
  split at h
  · cases h
    apply List.ext_getElem
    · rw [List.length_ofFn, hl]
    · intro i h1 h2
      rw [List.getElem_ofFn]
      funext j
      simp only [h2, dif_pos]
      rw [scalar, ZMod.val_natCast_of_lt (hc _ (List.getElem_mem h2) j)]
      simp
  · cases h

theorem readHashes_eq {pis : ℕ → F} {o : ℕ} {h : NHashes} (hl : h.prev.length = 256)
    (h1 : ∀ (i : ℕ) (hi : i < 256), slice pis (o + 8 * i) 8 = h256Limbs (h.prev[i]'(by omega))) (h2 : slice pis (o + 2048) 8 = h256Limbs h.cur) :
    readHashes pis o = h := by
  obtain ⟨p, c⟩ := h
  simp only [readHashes, NHashes.mk.injEq]
  refine ⟨?_, by rw [h2]; exact getH256_limbs _⟩
  apply List.ext_getElem
  · rw [List.length_ofFn]; exact hl.symm
  · intro i g1 g2
    rw [List.getElem_ofFn]
    exact (congrArg getH256 (h1 i (by rwa [List.length_ofFn] at g1))).trans (getH256_limbs _)

/-- What comes back is what went in, except that builds without `eth_mainnet` never write the blob gas and beacon root targets. -/
theorem C79_read_back_partial (ft : Features) (w l : PV) (pv : NPV) (hu : pv.Usual ft) (h : setPV ft w pv = some l) :
    ∃ m : NMetadata, readPV ft (asPis (l.toPis ft.cdk)) = { pv with metadata := m } ∧
      m = { pv.metadata with blobGasUsed := m.blobGasUsed, excessBlobGas := m.excessBlobGas, beaconRoot := m.beaconRoot } ∧
      (ft.mainnet = true → m = pv.metadata) := by
  simp only [setPV, Option.bind_eq_bind, Option.bind_eq_some_iff, Option.some.injEq] at h
  obtain ⟨md, hmd, hh, hhh, ex, hex, bn, hbn, rb, hrb, ra, hra, mb, hmb, ma, hma, hl⟩ := h
  have l1 : l.rootsBefore = setRoots pv.rootsBefore := by rw [← hl]
  have l2 : l.rootsAfter = setRoots pv.rootsAfter := by rw [← hl]
  have l3 : l.burn = bn := by rw [← hl]
  have l4 : l.metadata = md := by rw [← hl]
  have l5 : l.hashes = hh := by rw [← hl]
  have l6 : l.extra = ex := by rw [← hl]
  have l7 : l.regsBefore = rb := by rw [← hl]
  have l8 : l.regsAfter = ra := by rw [← hl]
  have l9 : l.memBefore = mb := by rw [← hl]
  have l10 : l.memAfter = ma := by rw [← hl]
  clear hl
  -- the metadata
  have hm : let m := readMetadata (asPis (l.toPis ft.cdk)) (48 + burnSize ft.cdk)
      m = { pv.metadata with blobGasUsed := m.blobGasUsed, excessBlobGas := m.excessBlobGas, beaconRoot := m.beaconRoot } ∧
      (ft.mainnet = true → m = pv.metadata) := by
    simp only [setMetadata, Option.bind_eq_bind, Option.bind_eq_some_iff, Option.some.injEq] at hmd
    obtain ⟨a1, h1, a2, h2, a3, h3, a4, h4, a5, h5, a6, h6, a7, h7, a8, h8, a9, h9, rfl⟩ := hmd
    intro m
    have e1 : m.beneficiary = pv.metadata.beneficiary := by
      show getH160 _ = _
      rw [lay_metadata_beneficiary, l4]; exact getH160_limbs _
    have e2 : m.timestamp = pv.metadata.timestamp := by
      show scalar _ = _
      rw [lay_metadata_timestamp, l4]; exact (u256ToU32_val h1).2.2
    have e3 : m.number = pv.metadata.number := by
      show scalar _ = _
      rw [lay_metadata_number, l4]; exact (u256ToU32_val h2).2.2
    have e4 : m.difficulty = pv.metadata.difficulty := by
      show scalar _ = _
      rw [lay_metadata_difficulty, l4]; exact (u256ToU32_val h3).2.2
    have e5 : m.random = pv.metadata.random := by
      show getH256 _ = _
      rw [lay_metadata_random, l4]; exact getH256_limbs _
    have e6 : m.gaslimit = pv.metadata.gaslimit := by
      show scalar _ = _
      rw [lay_metadata_gaslimit, l4]; exact (u256ToU32_val h4).2.2
    have e7 : m.chainId = pv.metadata.chainId := by
      show scalar _ = _
      rw [lay_metadata_chainId, l4]; exact (u256ToU32_val h5).2.2
    have e8 : m.baseFee = pv.metadata.baseFee := by
      have k : slice (asPis (l.toPis ft.cdk)) (48 + burnSize ft.cdk + 18) 2 = a6 := by rw [lay_metadata_baseFee, l4]
      rw [← (u256ToU64_val h6).2.2, ← k]; rfl
    have e9 : m.gasUsed = pv.metadata.gasUsed := by
      show scalar _ = _
      rw [lay_metadata_gasUsed, l4]; exact (u256ToU32_val h7).2.2
    have e10 : m.bloom = pv.metadata.bloom := by
      funext i
      show h2u (getH256 (slice _ (48 + burnSize ft.cdk + 33 + 8 * i.val) 8)) = _
      rw [sub_slice _ _ 64 i (by omega), lay_metadata_bloom, l4, ← h2u_getH256 (pv.metadata.bloom i)]
      have key : ∀ a b c d : Fin 8, a = b → c = d → u256Limbs (pv.metadata.bloom a) c = u256Limbs (pv.metadata.bloom b) d := by
        rintro a b c d rfl rfl; rfl
      congr 2
      funext k
      exact key _ _ _ _ (Fin.ext (by show (8 * i.val + k.val) / 8 = i.val; omega)) (Fin.ext (by show (8 * i.val + k.val) % 8 = k.val; omega))
    refine ⟨NMetadata.ext e1 e2 e3 e4 e5 e6 e7 e8 e9 rfl rfl rfl e10, fun hft => ?_⟩
    rw [hft] at h8 h9 l4
    have e11 : m.blobGasUsed = pv.metadata.blobGasUsed := by
      have k : slice (asPis (l.toPis ft.cdk)) (48 + burnSize ft.cdk + 21) 2 = a8 := by rw [lay_metadata_blobGasUsed, l4]
      rw [← (u256ToU64_val h8).2.2, ← k]; rfl
    have e12 : m.excessBlobGas = pv.metadata.excessBlobGas := by
      have k : slice (asPis (l.toPis ft.cdk)) (48 + burnSize ft.cdk + 23) 2 = a9 := by rw [lay_metadata_excessBlobGas, l4]
      rw [← (u256ToU64_val h9).2.2, ← k]; rfl
    have e13 : m.beaconRoot = pv.metadata.beaconRoot := by
      show getH256 _ = _
      rw [lay_metadata_beaconRoot, l4]; exact getH256_limbs _
    exact NMetadata.ext e1 e2 e3 e4 e5 e6 e7 e8 e9 e11 e12 e13 e10
  refine ⟨_, ?_, hm⟩
  refine NPV.ext ?_ ?_ ?_ rfl ?_ ?_ ?_ ?_ ?_ ?_
  · refine readRoots_eq ?_ ?_ ?_
    · exact (lay_rootsBefore_state _ _).trans (by rw [l1]; rfl)
    · exact (lay_rootsBefore_txns _ _).trans (by rw [l1]; rfl)
    · exact (lay_rootsBefore_receipts _ _).trans (by rw [l1]; rfl)
  · refine readRoots_eq ?_ ?_ ?_
    · exact (lay_rootsAfter_state _ _).trans (by rw [l2]; rfl)
    · exact (lay_rootsAfter_txns _ _).trans (by rw [l2]; rfl)
    · exact (lay_rootsAfter_receipts _ _).trans (by rw [l2]; rfl)
  · show (bif ft.cdk then some (getU256 (slice _ 48 8)) else none) = pv.burn
    have hb := hu.burn
    cases hc : ft.cdk
    · rw [hc] at hb
      rw [Option.isSome_eq_false_iff, Option.isNone_iff_eq_none] at hb
      rw [hb]; rfl
    · rw [hc] at hbn
      rw [cond_true, lay_burn, l3]
      simp only [cond_true, Option.map_eq_some_iff] at hbn
      obtain ⟨u, hu', rfl⟩ := hbn
      rw [getU256_limbs, hu']
  · unfold setHashes at hhh
    split at hhh
    · next hlen =>
      cases hhh
      refine readHashes_eq hu.hashes (fun i hi => ?_) ?_
      · rw [sub_slice _ _ 2048 i (by omega), lay_hashes_prev, l5]
        have key : ∀ (a b : ℕ) (ha : a < pv.hashes.prev.length) (hb : b < pv.hashes.prev.length) (c d : Fin 8), a = b → c = d →
            h256Limbs (pv.hashes.prev[a]) c = h256Limbs (pv.hashes.prev[b]) d := by
          rintro a b _ _ c d rfl rfl; rfl
        funext k
        exact key _ _ _ _ _ _ (by show (8 * i + k.val) / 8 = i; omega) (Fin.ext (by show (8 * i + k.val) % 8 = k.val; omega))
      · rw [lay_hashes_cur, l5]
    · cases hhh
  · simp only [setExtra, Option.bind_eq_bind, Option.bind_eq_some_iff, Option.some.injEq] at hex
    obtain ⟨a1, h1, a2, h2, a3, h3, a4, h4, rfl⟩ := hex
    refine NExtra.ext ?_ ?_ ?_ ?_ ?_ ?_
    · show getH256 (slice _ (2201 + burnSize ft.cdk) 8) = _
      rw [lay_extra_checkpointRoot, l6]; exact getH256_limbs _
    · show slice (asPis (l.toPis ft.cdk)) (2201 + burnSize ft.cdk + 8) 4 = pv.extra.checkpointHash
      rw [lay_extra_checkpointHash, l6]
    · show scalar (asPis _ (2201 + burnSize ft.cdk + 12)) = _
      rw [lay_extra_txnBefore, l6]; exact (u256ToU32_val h1).2.2
    · show scalar (asPis _ (2201 + burnSize ft.cdk + 13)) = _
      rw [lay_extra_txnAfter, l6]; exact (u256ToU32_val h2).2.2
    · show scalar (asPis _ (2201 + burnSize ft.cdk + 14)) = _
      rw [lay_extra_gasBefore, l6]; exact (u256ToU32_val h3).2.2
    · show scalar (asPis _ (2201 + burnSize ft.cdk + 15)) = _
      rw [lay_extra_gasAfter, l6]; exact (u256ToU32_val h4).2.2
  · obtain ⟨r1, r2, r3, r4, r5, r6⟩ := setRegisters_eq hrb
    refine NRegisters.ext ?_ ?_ ?_ ?_ ?_ ?_
    · show scalar (asPis _ (2217 + burnSize ft.cdk)) = _
      rw [lay_regsBefore_pc, l7, r1]
    · show scalar (asPis _ (2217 + burnSize ft.cdk + 1)) = _
      rw [lay_regsBefore_isKernel, l7, r2]
    · show scalar (asPis _ (2217 + burnSize ft.cdk + 2)) = _
      rw [lay_regsBefore_stackLen, l7, r3]
    · show getU256 (slice _ (2217 + burnSize ft.cdk + 3) 8) = _
      rw [lay_regsBefore_stackTop, l7, r4, getU256_limbs]
    · show scalar (asPis _ (2217 + burnSize ft.cdk + 11)) = _
      rw [lay_regsBefore_context, l7, r5]
    · show scalar (asPis _ (2217 + burnSize ft.cdk + 12)) = _
      rw [lay_regsBefore_gasUsed, l7, r6]
  · obtain ⟨r1, r2, r3, r4, r5, r6⟩ := setRegisters_eq hra
    refine NRegisters.ext ?_ ?_ ?_ ?_ ?_ ?_
    · show scalar (asPis _ (2230 + burnSize ft.cdk)) = _
      rw [lay_regsAfter_pc, l8, r1]
    · show scalar (asPis _ (2230 + burnSize ft.cdk + 1)) = _
      rw [lay_regsAfter_isKernel, l8, r2]
    · show scalar (asPis _ (2230 + burnSize ft.cdk + 2)) = _
      rw [lay_regsAfter_stackLen, l8, r3]
    · show getU256 (slice _ (2230 + burnSize ft.cdk + 3) 8) = _
      rw [lay_regsAfter_stackTop, l8, r4, getU256_limbs]
    · show scalar (asPis _ (2230 + burnSize ft.cdk + 11)) = _
      rw [lay_regsAfter_context, l8, r5]
    · show scalar (asPis _ (2230 + burnSize ft.cdk + 12)) = _
      rw [lay_regsAfter_gasUsed, l8, r6]
  · show readMemCap _ (2243 + burnSize ft.cdk) = _
    rw [← setMemCap_eq hmb hu.before.1 hu.before.2]
    unfold readMemCap
    congr 1
    funext i j
    rw [show 64 - 4 * (16 - i.val) + j.val = 4 * i.val + j.val by omega, lay_memBefore, l9]
  · show readMemCap _ (2307 + burnSize ft.cdk) = _
    rw [← setMemCap_eq hma hu.after.1 hu.after.2]
    unfold readMemCap
    congr 1
    funext i j
    rw [show 64 - 4 * (16 - i.val) + j.val = 4 * i.val + j.val by omega, lay_memAfter, l10]

/-! ## Cases -/

/-- Public values of an empty block at height 7, with base fee 2^40 and blob gas 5. -/
def sampleNPV (cdk : Bool) : NPV where
  rootsBefore := ⟨fun _ => 1, fun _ => 2, fun _ => 3⟩
  rootsAfter := ⟨fun _ => 4, fun _ => 5, fun i => .ofNat 8 i.val⟩
  burn := bif cdk then some 77 else none
  metadata := ⟨fun i => .ofNat 8 i.val, 6, 7, 8, fun _ => 9, 10, 11, .ofNat 256 (2 ^ 40 + 3), 13, 5, 15, fun _ => 16, fun i => .ofNat 256 i.val⟩
  hashes := ⟨List.replicate 256 fun _ => 17, fun _ => 18⟩
  extra := ⟨fun _ => 19, fun _ => 20, 21, 22, 23, 24⟩
  regsBefore := ⟨25, 1, 0, 28, 0, 30⟩
  regsAfter := ⟨31, 1, 0, .ofNat 256 (2 ^ 255), 0, 36⟩
  memBefore := List.replicate 16 fun _ => 37
  memAfter := List.replicate 16 fun j => .ofNat 256 j.val

theorem sample_usual (cdk mainnet : Bool) : (sampleNPV cdk).Usual ⟨cdk, mainnet⟩ where
  hashes := List.length_replicate
  burn := by cases cdk <;> rfl
  before := ⟨List.length_replicate, fun h hh j => by rw [List.eq_of_mem_replicate hh]; revert j; decide⟩
  after := ⟨List.length_replicate, fun h hh j => by rw [List.eq_of_mem_replicate hh]; revert j; decide⟩

theorem setMemCap_isSome (w : MemCap) (c : List (Fin 4 → U256)) (h1 : c.length ≤ 16) (h2 : ∀ h ∈ c, ∀ j, (h j).toNat < 2 ^ 64) :
    ∃ l, setMemCap w c = some l := ⟨_, if_pos ⟨h1, h2⟩⟩

theorem sample_set (ft : Features) (w : PV) : ∃ l, setPV ft w (sampleNPV ft.cdk) = some l ∧
    (ft.mainnet = false → l.metadata.beaconRoot = w.metadata.beaconRoot) := by
  obtain ⟨mb, hmb⟩ := setMemCap_isSome w.memBefore (sampleNPV ft.cdk).memBefore (by show (List.replicate 16 _).length ≤ 16; rw [List.length_replicate])
    (fun h hh j => by rw [List.eq_of_mem_replicate hh]; revert j; decide)
  obtain ⟨ma, hma⟩ := setMemCap_isSome w.memAfter (sampleNPV ft.cdk).memAfter (by show (List.replicate 16 _).length ≤ 16; rw [List.length_replicate])
    (fun h hh j => by rw [List.eq_of_mem_replicate hh]; revert j; decide)
  obtain ⟨hh, hhh⟩ : ∃ hh, setHashes (sampleNPV ft.cdk).hashes = some hh := by
    refine ⟨_, dif_pos ?_⟩
    show 256 ≤ (List.replicate 256 _).length
    rw [List.length_replicate]
  obtain ⟨md, hmd, hb⟩ : ∃ md, setMetadata ft w.metadata (sampleNPV ft.cdk).metadata = some md ∧
      (ft.mainnet = false → md.beaconRoot = w.metadata.beaconRoot) := by
    obtain ⟨cdk, mainnet⟩ := ft
    cases mainnet
    · exact ⟨_, rfl, fun _ => rfl⟩
    · exact ⟨_, rfl, fun h => nomatch h⟩
  obtain ⟨ex, hex⟩ : ∃ ex, setExtra (sampleNPV ft.cdk).extra = some ex := ⟨_, rfl⟩
  obtain ⟨rb, hrb⟩ : ∃ r, setRegisters (sampleNPV ft.cdk).regsBefore = some r := ⟨_, rfl⟩
  obtain ⟨ra, hra⟩ : ∃ r, setRegisters (sampleNPV ft.cdk).regsAfter = some r := ⟨_, rfl⟩
  obtain ⟨bn, hbn⟩ : ∃ b, (bif ft.cdk then (sampleNPV ft.cdk).burn.map u256Limbs else some w.burn) = some b := by
    cases ft.cdk <;> exact ⟨_, rfl⟩
  rw [setPV, hmb, hma, hhh, hmd, hex, hrb, hra, hbn]
  exact ⟨_, rfl, hb⟩

example : ∃ (w l : PV), (sampleNPV true).Usual ⟨true, true⟩ ∧ setPV ⟨true, true⟩ w (sampleNPV true) = some l :=
  let ⟨l, h, _⟩ := sample_set ⟨true, true⟩ PV.zero
  ⟨PV.zero, l, sample_usual true true, h⟩

/-- In a build without `eth_mainnet` the beacon root of the public values is not written: whatever is in the witness comes back. -/
theorem C79_violated_unwritten : ¬ C79_statement := by
  intro H
  obtain ⟨l, hl, hb⟩ := sample_set ⟨false, false⟩ PV.zero
  have := H ⟨false, false⟩ PV.zero l (sampleNPV false) (sample_usual false false) hl
  have e : getH256 (slice (asPis (l.toPis false)) (48 + burnSize false + 25) 8) = fun _ => 16 :=
    congrArg (fun p => p.metadata.beaconRoot) this
  rw [lay_metadata_beaconRoot, hb rfl] at e
  exact absurd (congrFun e 0) (by decide)

theorem slice_update (pis : ℕ → F) (k : ℕ) (x : F) (o n : ℕ) (h : k < o ∨ o + n ≤ k) : slice (Function.update pis k x) o n = slice pis o n := by
  funext i
  have := i.isLt
  exact Function.update_of_ne (by omega) _ _

/-- Reading forgets the upper half of limbs: public inputs that differ in the state root read as the same public values. -/
theorem C79_violated_noncanonical (ft : Features) : ∃ pis pis' : ℕ → F, slice pis 24 8 ≠ slice pis' 24 8 ∧ readPV ft pis = readPV ft pis' := by
  refine ⟨fun _ => 0, Function.update (fun _ => 0) 24 ((2 ^ 32 : ℕ) : F), ?_, ?_⟩
  · intro h
    have := congrFun h 0
    exact absurd (show (0 : F) = ((2 ^ 32 : ℕ) : F) from this) (by decide)
  · have u : ∀ k, 24 < k → Function.update (fun _ => (0 : F)) 24 ((2 ^ 32 : ℕ) : F) k = 0 := fun k h => Function.update_of_ne (by omega) _ _
    have us : ∀ o n, 24 < o → slice (Function.update (fun _ => (0 : F)) 24 ((2 ^ 32 : ℕ) : F)) o n = slice (fun _ => 0) o n :=
      fun o n h => slice_update _ _ _ _ _ (Or.inl h)
    have us' : ∀ o n, o + n ≤ 24 → slice (Function.update (fun _ => (0 : F)) 24 ((2 ^ 32 : ℕ) : F)) o n = slice (fun _ => 0) o n :=
      fun o n h => slice_update _ _ _ _ _ (Or.inr h)
    have e : getH256 (slice (Function.update (fun _ => (0 : F)) 24 ((2 ^ 32 : ℕ) : F)) 24 8) = getH256 (slice (fun _ => (0 : F)) 24 8) := by
      have : ∀ j : Fin 8, (slice (Function.update (fun _ => (0 : F)) 24 ((2 ^ 32 : ℕ) : F)) 24 8 j).val % 2 ^ 32 = 0 := by
        intro j
        by_cases hj : j.val = 0
        · simp only [slice, hj, Nat.add_zero, Function.update_self]; decide
        · rw [slice, u _ (by omega)]; rfl
      funext k
      simp only [getH256, this]
      rfl
    simp (discharger := omega) only [readPV, readRoots, readMetadata, readHashes, readExtra, readRegisters, readMemCap, us, us', u, e]

end Verif.Recursion
