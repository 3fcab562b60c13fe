import Verif.Recursion.Claims81
import Verif.Recursion.Demo
import Mathlib.Tactic.FieldSimp
import Mathlib.Tactic.LinearCombination

/-! # C82: the challenges are bound to the values they are used to check -/
namespace Verif.Recursion

open Verif.Stark (F P)

/-- C82 in full: public values for which the challenger is given the same elements are compared with memory through the same sums. Otherwise
values could be chosen after the challenges they are checked with are known. -/
def C82_statement : Prop :=
  ∀ (ft : Features) (ker : KernelInfo) (l l' : PV), observedT ft l = observedT ft l' →
    ∀ β γ, lookingSum β γ (circuitRows ft ker l) = lookingSum β γ (circuitRows ft ker l')

/-- Equality of everything the challenger is given. -/
structure SameButRegisters (ft : Features) (l l' : PV) : Prop where
  rootsBefore : l.rootsBefore = l'.rootsBefore
  rootsAfter : l.rootsAfter = l'.rootsAfter
  metadata : l.metadata = { l'.metadata with
    blobGasUsed := l.metadata.blobGasUsed, excessBlobGas := l.metadata.excessBlobGas, beaconRoot := l.metadata.beaconRoot }
  blob : ft.mainnet = true → l.metadata = l'.metadata
  hashes : l.hashes = l'.hashes
  extra : l.extra = l'.extra
  burn : ft.cdk = true → l.burn = l'.burn

theorem ofFn_append_inj {n : ℕ} {a b : Fin n → F} {x y : List F} (h : List.ofFn a ++ x = List.ofFn b ++ y) : a = b ∧ x = y := by
  have := List.append_inj h (by rw [List.length_ofFn, List.length_ofFn])
  exact ⟨List.ofFn_injective this.1, this.2⟩

theorem cons_append_inj {a b : F} {x y : List F} (h : a :: x = b :: y) : a = b ∧ x = y := by simpa using h

/-- The same transcript means the same public values, except the registers and memory caps. (The memory caps are those of two tables whose
commitments are given to the challenger before.) -/
theorem C82_transcript_binds_partial (ft : Features) (l l' : PV) (h : observedT ft l = observedT ft l') : SameButRegisters ft l l' := by
  simp only [observedT, observeRootsT, observeMetadataT, observeExtraT, List.append_assoc, List.cons_append, List.nil_append] at h
  obtain ⟨r1, h⟩ := ofFn_append_inj h
  obtain ⟨r2, h⟩ := ofFn_append_inj h
  obtain ⟨r3, h⟩ := ofFn_append_inj h
  obtain ⟨r4, h⟩ := ofFn_append_inj h
  obtain ⟨r5, h⟩ := ofFn_append_inj h
  obtain ⟨r6, h⟩ := ofFn_append_inj h
  obtain ⟨m1, h⟩ := ofFn_append_inj h
  obtain ⟨m2, h⟩ := cons_append_inj h
  obtain ⟨m3, h⟩ := cons_append_inj h
  obtain ⟨m4, h⟩ := cons_append_inj h
  obtain ⟨m5, h⟩ := ofFn_append_inj h
  obtain ⟨m6, h⟩ := cons_append_inj h
  obtain ⟨m7, h⟩ := cons_append_inj h
  obtain ⟨m8, h⟩ := ofFn_append_inj h
  obtain ⟨m9, h⟩ := cons_append_inj h
  have hblob : (ft.mainnet = true → l.metadata.blobGasUsed = l'.metadata.blobGasUsed ∧ l.metadata.excessBlobGas = l'.metadata.excessBlobGas ∧
        l.metadata.beaconRoot = l'.metadata.beaconRoot) ∧
      List.ofFn l.metadata.bloom ++ (List.ofFn l.hashes.prev ++ (List.ofFn l.hashes.cur ++ (List.ofFn l.extra.checkpointRoot ++
        (List.ofFn l.extra.checkpointHash ++ l.extra.txnBefore :: l.extra.txnAfter :: l.extra.gasBefore :: l.extra.gasAfter ::
        (bif ft.cdk then List.ofFn l.burn else []))))) =
      List.ofFn l'.metadata.bloom ++ (List.ofFn l'.hashes.prev ++ (List.ofFn l'.hashes.cur ++ (List.ofFn l'.extra.checkpointRoot ++
        (List.ofFn l'.extra.checkpointHash ++ l'.extra.txnBefore :: l'.extra.txnAfter :: l'.extra.gasBefore :: l'.extra.gasAfter ::
        (bif ft.cdk then List.ofFn l'.burn else []))))) := by
    cases hm : ft.mainnet
    · rw [hm] at h
      exact ⟨fun h => (nomatch h), h⟩
    · rw [hm] at h
      simp only [cond_true, List.append_assoc] at h
      obtain ⟨b1, h⟩ := ofFn_append_inj h
      obtain ⟨b2, h⟩ := ofFn_append_inj h
      obtain ⟨b3, h⟩ := ofFn_append_inj h
      exact ⟨fun _ => ⟨b1, b2, b3⟩, h⟩
  obtain ⟨mb, h⟩ := hblob
  obtain ⟨m10, h⟩ := ofFn_append_inj h
  obtain ⟨h1, h⟩ := ofFn_append_inj h
  obtain ⟨h2, h⟩ := ofFn_append_inj h
  obtain ⟨e1, h⟩ := ofFn_append_inj h
  obtain ⟨e2, h⟩ := ofFn_append_inj h
  obtain ⟨e3, h⟩ := cons_append_inj h
  obtain ⟨e4, h⟩ := cons_append_inj h
  obtain ⟨e5, h⟩ := cons_append_inj h
  obtain ⟨e6, h⟩ := cons_append_inj h
  exact {
    rootsBefore := TrieRoots.ext r1 r2 r3
    rootsAfter := TrieRoots.ext r4 r5 r6
    metadata := Metadata.ext m1 m2 m3 m4 m5 m6 m7 m8 m9 rfl rfl rfl m10
    blob := fun hm => Metadata.ext m1 m2 m3 m4 m5 m6 m7 m8 m9 (mb hm).1 (mb hm).2.1 (mb hm).2.2 m10
    hashes := BlockHashes.ext h1 h2
    extra := Extra.ext e1 e2 e3 e4 e5 e6
    burn := fun hc => by rw [hc] at h; exact List.ofFn_injective h }

/-- With the registers equal as well, the sums are the same: the registers are the only gap. -/
theorem C82_sums_bound_partial (ft : Features) (ker : KernelInfo) (l l' : PV) (h : observedT ft l = observedT ft l')
    (hb : l.regsBefore = l'.regsBefore) (ha : l.regsAfter = l'.regsAfter) : circuitRows ft ker l = circuitRows ft ker l' := by
  have s := C82_transcript_binds_partial ft l l' h
  have hburn : (bif ft.cdk then [cgm .burnAddr (List.ofFn l.burn)] else []) = (bif ft.cdk then [cgm .burnAddr (List.ofFn l'.burn)] else []) := by
    cases hc : ft.cdk
    · rfl
    · rw [s.burn hc]
  have hblob : (bif ft.mainnet then [cgm .blockBlobGasUsed (List.ofFn l.metadata.blobGasUsed), cgm .blockExcessBlobGas (List.ofFn l.metadata.excessBlobGas),
      cgm .parentBeaconBlockRoot (List.ofFn l.metadata.beaconRoot)] else []) =
      (bif ft.mainnet then [cgm .blockBlobGasUsed (List.ofFn l'.metadata.blobGasUsed), cgm .blockExcessBlobGas (List.ofFn l'.metadata.excessBlobGas),
      cgm .parentBeaconBlockRoot (List.ofFn l'.metadata.beaconRoot)] else []) := by
    cases hm : ft.mainnet
    · rfl
    · rw [s.blob hm]
  unfold circuitRows
  simp only [hburn, hblob]
  rw [s.rootsBefore, s.rootsAfter, s.hashes, s.extra, hb, ha]
  have m := s.metadata
  have k1 := congrArg Metadata.beneficiary m
  have k2 := congrArg Metadata.timestamp m
  have k3 := congrArg Metadata.number m
  have k4 := congrArg Metadata.difficulty m
  have k5 := congrArg Metadata.random m
  have k6 := congrArg Metadata.gaslimit m
  have k7 := congrArg Metadata.chainId m
  have k8 := congrArg Metadata.baseFee m
  have k9 := congrArg Metadata.gasUsed m
  have k10 := congrArg Metadata.bloom m
  dsimp only at k1 k2 k3 k4 k5 k6 k7 k8 k9 k10
  rw [k1, k2, k3, k4, k5, k6, k7, k8, k9, k10]

/-! ## The gap -/

/-- The public values with another word on top of the stack at the start. -/
def PV.withTop (l : PV) (v : Limbs 8) : PV := { l with regsBefore := { l.regsBefore with stackTop := v } }

/-- The row that word makes. -/
def topRow (v : Limbs 8) : Row := mkRow segRegistersStates 3 v

/-- The sum without that row. -/
def sumBut (ft : Features) (ker : KernelInfo) (l : PV) (β γ : F) : F := lookingSum β γ (circuitRows ft ker l) - (combine β γ (topRow l.regsBefore.stackTop))⁻¹

theorem sum_withTop (ft : Features) (ker : KernelInfo) (l : PV) (v : Limbs 8) (β γ : F) :
    lookingSum β γ (circuitRows ft ker (l.withTop v)) = sumBut ft ker l β γ + (combine β γ (topRow v))⁻¹ := by
  have key : ∀ A C : List Row, ∀ r : Registers, lookingSum β γ (A ++ cRegisters 0 r ++ C) =
      lookingSum β γ A + lookingSum β γ C + (combine β γ (crow segRegistersStates 0 [r.pc]))⁻¹ + (combine β γ (crow segRegistersStates 1 [r.isKernel]))⁻¹ +
      (combine β γ (crow segRegistersStates 2 [r.stackLen]))⁻¹ + (combine β γ (topRow r.stackTop))⁻¹ +
      (combine β γ (crow segRegistersStates 4 [r.context]))⁻¹ + (combine β γ (crow segRegistersStates 5 [r.gasUsed]))⁻¹ := by
    intro A C r
    have : crow segRegistersStates 3 (List.ofFn r.stackTop) = topRow r.stackTop := by rw [crow, pad_ofFn]; rfl
    simp only [lookingSum, cRegisters, List.map_append, List.sum_append, List.map_cons, List.map_nil, List.sum_cons, List.sum_nil, Nat.zero_add, this]
    ring
  unfold sumBut circuitRows
  simp only []
  rw [key, key]
  show _ = _
  simp only [PV.withTop]
  ring

/-- The combination for a word of two limbs. -/
theorem combine_top (β γ x y : F) :
    combine β γ (topRow fun i => if i.val = 0 then x else if i.val = 1 then y else 0) = 33 * β ^ 2 + 3 * β ^ 3 + x * β ^ 4 + y * β ^ 5 + 2 * β ^ 12 + γ := by
  have e : ∀ v : Limbs 8, ∀ r : Row, r = topRow v → ∑ j : Fin 13, r j * β ^ j.val =
      33 * β ^ 2 + 3 * β ^ 3 + v 0 * β ^ 4 + v 1 * β ^ 5 + v 2 * β ^ 6 + v 3 * β ^ 7 + v 4 * β ^ 8 + v 5 * β ^ 9 + v 6 * β ^ 10 + v 7 * β ^ 11 + 2 * β ^ 12 := by
    intro v r hr
    have r0 : r 0 = 0 := by rw [hr]; rfl
    have r1 : r 1 = 0 := by rw [hr]; rfl
    have r2 : r 2 = 33 := by rw [hr]; rfl
    have r3 : r 3 = 3 := by rw [hr]; rfl
    have r4 : r 4 = v 0 := by rw [hr]; rfl
    have r5 : r 5 = v 1 := by rw [hr]; rfl
    have r6 : r 6 = v 2 := by rw [hr]; rfl
    have r7 : r 7 = v 3 := by rw [hr]; rfl
    have r8 : r 8 = v 4 := by rw [hr]; rfl
    have r9 : r 9 = v 5 := by rw [hr]; rfl
    have r10 : r 10 = v 6 := by rw [hr]; rfl
    have r11 : r 11 = v 7 := by rw [hr]; rfl
    have r12 : r 12 = 2 := by rw [hr]; rfl
    simp only [Fin.sum_univ_succ, Fin.sum_univ_zero]
    show r 0 * _ + (r 1 * _ + (r 2 * _ + (r 3 * _ + (r 4 * _ + (r 5 * _ + (r 6 * _ + (r 7 * _ + (r 8 * _ + (r 9 * _ + (r 10 * _ + (r 11 * _ + (r 12 * _ + 0)))))))))))) = _
    rw [r0, r1, r2, r3, r4, r5, r6, r7, r8, r9, r10, r11, r12]
    show 0 * β ^ 0 + (0 * β ^ 1 + (33 * β ^ 2 + (3 * β ^ 3 + (v 0 * β ^ 4 + (v 1 * β ^ 5 + (v 2 * β ^ 6 + (v 3 * β ^ 7 + (v 4 * β ^ 8 + (v 5 * β ^ 9 + (v 6 * β ^ 10 + (v 7 * β ^ 11 + (2 * β ^ 12 + 0)))))))))))) = _
    ring
  rw [combine, e _ _ rfl]
  simp only [show ((0 : Fin 8).val = 0) from rfl, show ((1 : Fin 8).val = 1) from rfl, show ((2 : Fin 8).val = 2) from rfl, show ((3 : Fin 8).val = 3) from rfl,
    show ((4 : Fin 8).val = 4) from rfl, show ((5 : Fin 8).val = 5) from rfl, show ((6 : Fin 8).val = 6) from rfl, show ((7 : Fin 8).val = 7) from rfl]
  norm_num
  try ring

/-- The sums can be set at will after the challenges are known. Take any public values, the two challenges drawn from their transcript and any two
targets (other than the sums without the row of the top of the stack). There are public values with the same transcript, which differ only
in the word on top of the stack at the start, and whose sums are these targets. No circuit above constrains that word: the new values start and
end a complete run exactly if the old ones do. -/
theorem C82_violated_forge (ft : Features) (ker : KernelInfo) (l : PV) (β₁ γ₁ β₂ γ₂ t₁ t₂ : F) (h₁ : β₁ ≠ 0) (h₂ : β₂ ≠ 0) (hne : β₁ ≠ β₂)
    (ht₁ : t₁ ≠ sumBut ft ker l β₁ γ₁) (ht₂ : t₂ ≠ sumBut ft ker l β₂ γ₂) :
    ∃ v : Limbs 8, observedT ft (l.withTop v) = observedT ft l ∧
      lookingSum β₁ γ₁ (circuitRows ft ker (l.withTop v)) = t₁ ∧ lookingSum β₂ γ₂ (circuitRows ft ker (l.withTop v)) = t₂ ∧
      combine β₁ γ₁ (topRow v) ≠ 0 ∧ combine β₂ γ₂ (topRow v) ≠ 0 ∧
      ∀ S : Setup, InitialFinal S (l.withTop v) ↔ InitialFinal S l := by
  let d (β γ t : F) : F := ((t - sumBut ft ker l β γ)⁻¹ - (33 * β ^ 2 + 3 * β ^ 3 + 2 * β ^ 12 + γ)) / β ^ 4
  let y := (d β₁ γ₁ t₁ - d β₂ γ₂ t₂) / (β₁ - β₂)
  let x := d β₁ γ₁ t₁ - y * β₁
  have hs : β₁ - β₂ ≠ 0 := sub_ne_zero.mpr hne
  have hy : y * (β₁ - β₂) = d β₁ γ₁ t₁ - d β₂ γ₂ t₂ := div_mul_cancel₀ _ hs
  have hd : ∀ β γ t, β ≠ 0 → x + y * β = d β γ t →
      combine β γ (topRow fun i => if i.val = 0 then x else if i.val = 1 then y else 0) = (t - sumBut ft ker l β γ)⁻¹ := by
    intro β γ t hβ e
    have e' : d β γ t * β ^ 4 = (t - sumBut ft ker l β γ)⁻¹ - (33 * β ^ 2 + 3 * β ^ 3 + 2 * β ^ 12 + γ) := div_mul_cancel₀ _ (pow_ne_zero 4 hβ)
    rw [combine_top]
    linear_combination e' + β ^ 4 * e
  have c₁ := hd β₁ γ₁ t₁ h₁ (by show d β₁ γ₁ t₁ - y * β₁ + y * β₁ = _; ring)
  have c₂ := hd β₂ γ₂ t₂ h₂ (by show d β₁ γ₁ t₁ - y * β₁ + y * β₂ = _; linear_combination -hy)
  refine ⟨fun i => if i.val = 0 then x else if i.val = 1 then y else 0, rfl, ?_, ?_, ?_, ?_, fun S => ⟨fun h => ⟨h.1, h.2, h.3, h.4, h.5, h.6, h.7, h.8, h.9⟩, fun h => ⟨h.1, h.2, h.3, h.4, h.5, h.6, h.7, h.8, h.9⟩⟩⟩
  · rw [sum_withTop, c₁, inv_inv]; ring
  · rw [sum_withTop, c₂, inv_inv]; ring
  · rw [c₁]; exact inv_ne_zero (sub_ne_zero.mpr ht₁)
  · rw [c₂]; exact inv_ne_zero (sub_ne_zero.mpr ht₂)

/-- The guards of the forgery are met, for any public values, whatever `γ₁`, `γ₂`. -/
example (ft : Features) (ker : KernelInfo) (l : PV) (γ₁ γ₂ : F) : ∃ t₁ t₂, (5 : F) ≠ 0 ∧ (7 : F) ≠ 0 ∧ (5 : F) ≠ 7 ∧
    t₁ ≠ sumBut ft ker l 5 γ₁ ∧ t₂ ≠ sumBut ft ker l 7 γ₂ :=
  ⟨sumBut ft ker l 5 γ₁ + 1, sumBut ft ker l 7 γ₂ + 1, by decide, by decide, by decide, by simp, by simp⟩

example : observedT ⟨true, true⟩ PV.zero = observedT ⟨true, true⟩ (PV.zero.withTop fun _ => 1) := rfl

theorem C82_violated : ¬ C82_statement := by
  intro H
  let ft : Features := ⟨false, false⟩
  let ker : KernelInfo := ⟨fun _ => 0, 0⟩
  have go : ∀ t : F, t ≠ sumBut ft ker PV.zero 5 0 → t = lookingSum 5 0 (circuitRows ft ker PV.zero) := by
    intro t ht
    obtain ⟨v, hv, e1, _⟩ := C82_violated_forge ft ker PV.zero 5 0 7 0 t (sumBut ft ker PV.zero 7 0 + 1) (by decide) (by decide) (by decide) ht (by simp)
    rw [← e1]
    exact H ft ker _ _ hv 5 0
  have a := go (sumBut ft ker PV.zero 5 0 + 1) (by simp)
  have b := go (sumBut ft ker PV.zero 5 0 + 2) (by rw [ne_eq, add_eq_left]; decide)
  rw [← a] at b
  have : (2 : F) = 1 := add_left_cancel b
  exact absurd this (by decide)

end Verif.Recursion
