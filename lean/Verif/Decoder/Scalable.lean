import Verif.Decoder.Block
import Verif.World.Type2Demo
/-!
# C53: the pre-execution hook of CDK networks
-/
namespace Verif.Decoder
open Mpt (Key Bytes H256)
open World

/-- A hash as the integer stored in a slot. -/
def hashInt (h : H256) : U256 := BitVec.ofNat 256 (Rlp.beVal h.bytes)

/-- What the hook should write, in order: the block number, the larger of the two timestamps, the state root `root`
under the previous block number (in the mapping at position 1), and the L1 block hash under the exit root. -/
def cdkWrites (keccak : Bytes → H256) (b : Block) (ger : Option (H256 × H256)) (old : U256) (root : H256) : List (Field2 × U256) :=
  [(.slot scalableAddr 0, b.number),
   (.slot scalableAddr 2, if old.toNat ≤ b.timestamp.toNat then b.timestamp else old),
   (.slot scalableAddr (hashInt (keccak (slotBytes (b.number - 1).toNat ++ slotBytes 1))), hashInt root)] ++
  match ger with
  | none => []
  | some (exit, l1) => [(.slot gerAddr (hashInt (keccak (exit.bytes ++ slotBytes 0))), hashInt l1)]

/-- The fields after some writes. -/
def setFields (m : Field2 → Option U256) (l : List (Field2 × U256)) : Field2 → Option U256 :=
  l.foldl (fun m x f => if f = x.1 then some x.2 else m f) m

/-- **C53, CDK.** The hook succeeds exactly if block number and new timestamp are not zero; it makes the writes of
`cdkWrites` and no others, with `root` the root of the world after `early` of them. -/
def C53_cdk (H : Smt.Nd → Smt.Key) (codeHash : Bytes → H256) (early : Nat) : Prop :=
  ∀ (env : Env) (b : Block) (ger : Option (H256 × H256)) (w w' : World2) (m : Masks) (p : List (List Bool)),
    scalableHook (type2 H codeHash) env b ger w = .ok (w', m, p) →
    b.number ≠ 0 ∧ ∃ w1 : World2,
      (∀ f, w1.field f = setFields w.field ((cdkWrites env.keccak b ger ((w.field (.slot scalableAddr 2)).getD 0)
        ((type2 H codeHash).root w)).take early) f) ∧ w1.hashedOut = w.hashedOut ∧ (early = 0 → w1 = w) ∧
      w'.hashedOut = w.hashedOut ∧
      ∀ f, w'.field f = setFields w.field (cdkWrites env.keccak b ger ((w.field (.slot scalableAddr 2)).getD 0)
        ((type2 H codeHash).root w1)) f

/-- The property as stated: the root is that of the state before the block (as the kernel does,
`evm_arithmetization/src/cpu/kernel/asm/cdk_pre_execution.asm:33-36`). -/
def C53_cdk_statement (H : Smt.Nd → Smt.Key) (codeHash : Bytes → H256) : Prop := C53_cdk H codeHash 0

variable {H : Smt.Nd → Smt.Key} {codeHash : Bytes → H256}

theorem storeInt2 (w : World2) (a : Addr) (s v : U256) : ∃ w', (type2 H codeHash).storeInt w a s v = .ok w' ∧
    w'.hashedOut = w.hashedOut ∧ ∀ f, w'.field f = if f = .slot a s then some v else w.field f :=
  run_effect (H := H) (codeHash := codeHash) w (.store a s v)

theorem storeHash2 (w : World2) (a : Addr) (s v : H256) : ∃ w', (type2 H codeHash).storeHash w a s v = .ok w' ∧
    w'.hashedOut = w.hashedOut ∧ ∀ f, w'.field f = if f = .slot a (hashInt s) then some (hashInt v) else w.field f :=
  run_effect (H := H) (codeHash := codeHash) w (.storeHash a s v)

theorem scalableStore_ok {W P : Type} {I : Ops W P} {env : Env} {w w' : W} {m m' : Masks} {ix u : U256}
    (h : scalableStore I env w m ix u = .ok (w', m')) : I.storeInt w scalableAddr ix u = .ok w' := by
  unfold scalableStore at h
  by_cases hu : u = 0
  · rw [if_pos hu] at h; cases h
  · rw [if_neg hu] at h
    obtain ⟨x, h1, e⟩ := bind_ok.1 h
    cases e
    exact h1

theorem loadInt2 (w : World2) (a : Addr) (s : U256) :
    unwrapOrDefault ((type2 H codeHash).loadInt w a s) = (w.field (.slot a s)).getD 0 := by
  simp only [type2, World2.field, World2.get]
  cases SMap.get w.accounts a <;> rfl

/-- **C53, CDK.** What the hook does: the root it stores is the root after the block number and the timestamp have been
written, not the root before the block. -/
theorem C53_cdk_partial : C53_cdk H codeHash 2 := by
  intro env b ger w w' m p h
  unfold scalableHook at h
  split at h
  · cases h
  rename_i hnum
  simp only [loadInt2] at h
  obtain ⟨⟨w1, m1⟩, h1, h⟩ := bind_ok.1 h
  obtain ⟨⟨w2, m2⟩, h2, h⟩ := bind_ok.1 h
  obtain ⟨w3, h3, h⟩ := bind_ok.1 h
  replace h1 := scalableStore_ok h1
  replace h2 := scalableStore_ok h2
  obtain ⟨y1, a1, a2, a3⟩ := storeInt2 (H := H) (codeHash := codeHash) w scalableAddr lastBlockPos b.number
  rw [a1] at h1; cases h1
  obtain ⟨y2, b1, b2, b3⟩ := storeInt2 (H := H) (codeHash := codeHash) w1 scalableAddr timestampPos
    (if ((w.field (.slot scalableAddr 2)).getD 0).toNat ≤ b.timestamp.toNat then b.timestamp else (w.field (.slot scalableAddr 2)).getD 0)
  rw [show timestampPos = (2 : U256) from rfl] at h2 b1 b3
  rw [b1] at h2; cases h2
  obtain ⟨y3, c1, c2, c3⟩ := storeHash2 (H := H) (codeHash := codeHash) w2 scalableAddr
    (mapSlot env (slotBytes (b.number - 1).toNat) stateRootPos) ((type2 H codeHash).root w2)
  rw [c1] at h3; cases h3
  refine ⟨hnum, w2, fun f => ?_, by rw [b2, a2], (fun h => by cases h), ?_⟩
  · rw [b3, a3]
    cases ger <;> rfl
  · cases ger with
    | none =>
      cases h
      refine ⟨by rw [c2, b2, a2], fun f => ?_⟩
      rw [c3, b3, a3]
      rfl
    | some g =>
      obtain ⟨exit, l1⟩ := g
      obtain ⟨w4, h4, h⟩ := bind_ok.1 h
      cases h
      obtain ⟨y4, d1, d2, d3⟩ := storeHash2 (H := H) (codeHash := codeHash) w3 gerAddr (mapSlot env exit.bytes gerPos) l1
      rw [d1] at h4; cases h4
      refine ⟨by rw [d2, c2, b2, a2], fun f => ?_⟩
      rw [d3, c3, b3, a3]
      rfl

/-- **C53, CDK.** It fails only for the genesis block and for a zero timestamp. -/
theorem C53_cdk_succeeds (env : Env) (b : Block) (ger : Option (H256 × H256)) (w : World2) (h1 : b.number ≠ 0)
    (h2 : b.timestamp ≠ 0) : ∃ r, scalableHook (type2 H codeHash) env b ger w = .ok r := by
  unfold scalableHook
  rw [if_neg h1]
  simp only [loadInt2]
  have hts : (if ((w.field (.slot scalableAddr timestampPos)).getD 0).toNat ≤ b.timestamp.toNat then b.timestamp else
      (w.field (.slot scalableAddr timestampPos)).getD 0) ≠ (0 : U256) := by
    split
    · exact h2
    · rename_i h
      intro h0
      rw [h0] at h
      exact h (Nat.zero_le _)
  obtain ⟨y1, a1, -⟩ := storeInt2 (H := H) (codeHash := codeHash) w scalableAddr lastBlockPos b.number
  obtain ⟨y2, b1, -⟩ := storeInt2 (H := H) (codeHash := codeHash) y1 scalableAddr timestampPos
    (if ((w.field (.slot scalableAddr timestampPos)).getD 0).toNat ≤ b.timestamp.toNat then b.timestamp else
      (w.field (.slot scalableAddr timestampPos)).getD 0)
  obtain ⟨y3, c1, -⟩ := storeHash2 (H := H) (codeHash := codeHash) y2 scalableAddr
    (mapSlot env (slotBytes (b.number - 1).toNat) stateRootPos) ((type2 H codeHash).root y2)
  simp only [scalableStore, if_neg h1, if_neg hts, a1, b1, c1, bind, Except.bind, pure, Except.pure]
  cases ger with
  | none => exact ⟨_, rfl⟩
  | some g =>
    obtain ⟨y4, d1, -⟩ := storeHash2 (H := H) (codeHash := codeHash) y3 gerAddr (mapSlot env g.1.bytes gerPos) g.2
    simp only [d1]
    exact ⟨_, rfl⟩

/-- The block of the witness. -/
def cdkBlock : Block := ⟨1, 7, toyHash []⟩

/-- **C53, CDK, negated.** On the empty state the root stored is not the root of the empty state. -/
theorem C53_violated_cdk_root : ¬ C53_cdk_statement Smt.toyH (fun _ => toyHash []) := by
  intro h
  obtain ⟨⟨w', m, p⟩, hr⟩ := C53_cdk_succeeds (H := Smt.toyH) (codeHash := fun _ => toyHash []) toyEnv1 cdkBlock none {} (by decide) (by decide)
  obtain ⟨-, w1, -, -, h1, -, h2⟩ := h toyEnv1 cdkBlock none {} w' m p hr
  have := h1 rfl
  subst this
  have hk : hashInt (toyEnv1.keccak (slotBytes (cdkBlock.number - 1).toNat ++ slotBytes 1)) ≠ 0 ∧
      hashInt (toyEnv1.keccak (slotBytes (cdkBlock.number - 1).toNat ++ slotBytes 1)) ≠ 2 := by decide +kernel
  have hf := h2 (.slot scalableAddr (hashInt (toyEnv1.keccak (slotBytes (cdkBlock.number - 1).toNat ++ slotBytes 1))))
  have e : (match scalableHook (type2 Smt.toyH (fun _ => toyHash [])) toyEnv1 cdkBlock none {} with
    | .ok (w, _, _) => w.field (.slot scalableAddr (hashInt (toyEnv1.keccak (slotBytes (cdkBlock.number - 1).toNat ++ slotBytes 1)))) !=
        some (hashInt ((type2 Smt.toyH (fun _ => toyHash [])).root {}))
    | .error _ => false) = true := by
    decide +kernel
  rw [hr] at e
  simp only [bne_iff_ne, ne_eq] at e
  apply e
  rw [hf]
  simp [setFields, cdkWrites]

/-- The hook on a world that already holds a later timestamp: it is kept. -/
example : (match scalableHook (type2 Smt.toyH (fun _ => toyHash [])) toyEnv1 cdkBlock (some (toyHash [1], toyHash [2]))
      { accounts := [(scalableAddr, { storage := [(2, 100)] })] } with
    | .ok (w, _, _) => decide (w.field (.slot scalableAddr 0) = some 1 ∧ w.field (.slot scalableAddr 2) = some 100)
    | .error _ => false) = true := by
  decide +kernel

end Verif.Decoder
