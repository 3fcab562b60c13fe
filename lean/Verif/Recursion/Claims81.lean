import Verif.Recursion.Transcript
import Verif.Recursion.Claims79

/-! # C81 and C82: the verifier in a circuit follows the verifier outside, and what the challenges are bound to -/
namespace Verif.Recursion

open Verif.Stark (F P)

/-! ## C81 -/

theorem ofFn_blocks {N m : ℕ} (hN : N = m * 8) (v : Fin N → F) (g : Fin m → Limbs 8)
    (h : ∀ (i : Fin m) (k : Fin 8), v ⟨i.val * 8 + k.val, by omega⟩ = g i k) :
    List.ofFn v = (List.ofFn fun i => List.ofFn (g i)).flatten := by
  subst hN
  rw [List.ofFn_mul]
  congr 2
  funext i
  congr 1
  funext k
  exact h i k

theorem ofFn_bloom (b : Fin 8 → U256) : List.ofFn (bloomLimbs b) = (List.ofFn fun i : Fin 8 => List.ofFn (u256Limbs (b i))).flatten := by
  refine ofFn_blocks (by decide) _ _ fun i k => ?_
  have key : ∀ a c : Fin 8, ∀ x y : Fin 8, a = c → x = y → u256Limbs (b a) x = u256Limbs (b c) y := by rintro a c x y rfl rfl; rfl
  exact key _ _ _ _ (Fin.ext (by show (i.val * 8 + k.val) / 8 = i.val; omega)) (Fin.ext (by show (i.val * 8 + k.val) % 8 = k.val; omega))

theorem ofFn_prev (p : List H256) (h : 256 ≤ p.length) :
    List.ofFn (fun i : Fin 2048 => h256Limbs (p[i.val / 8]'(by omega)) ⟨i % 8, by omega⟩) =
      (List.ofFn fun i : Fin 256 => List.ofFn (h256Limbs (p[i.val]'(by omega)))).flatten := by
  refine ofFn_blocks (by decide) _ (fun i : Fin 256 => h256Limbs (p[i.val]'(by omega))) fun i k => ?_
  have key : ∀ (a c : ℕ) (ha : a < p.length) (hc : c < p.length) (x y : Fin 8), a = c → x = y → h256Limbs p[a] x = h256Limbs p[c] y := by
    rintro a c _ _ x y rfl rfl; rfl
  exact key _ _ _ _ _ _ (by show (i.val * 8 + k.val) / 8 = i.val; omega) (Fin.ext (by show (i.val * 8 + k.val) % 8 = k.val; omega))

/-- The challenger outside circuits is given exactly the elements the challenger inside is given, in the same order. -/
theorem C81_same_transcript (ft : Features) (w l : PV) (pv : NPV) (h : setPV ft w pv = some l) : observed ft pv = some (observedT ft l) := by
  simp only [setPV, Option.bind_eq_bind, Option.bind_eq_some_iff, Option.some.injEq] at h
  obtain ⟨md, hmd, hh, hhh, ex, hex, bn, hbn, rb, hrb, ra, hra, mb, hmb, ma, hma, rfl⟩ := h
  have h1 : observeMetadata ft pv.metadata = some (observeMetadataT ft md) := by
    simp only [setMetadata, Option.bind_eq_bind, Option.bind_eq_some_iff, Option.some.injEq] at hmd
    obtain ⟨a1, h1, a2, h2, a3, h3, a4, h4, a5, h5, a6, h6, a7, h7, a8, h8, a9, h9, rfl⟩ := hmd
    rw [observeMetadata, h1, h2, h3, h4, h5, h6, h7, observeMetadataT]
    have e2 : ∀ x : Limbs 2, List.ofFn x = [x 0, x 1] := fun x => rfl
    cases hm : ft.mainnet
    · simp only [Option.bind_eq_bind, Option.bind_some, cond_false, ofFn_bloom, e2, List.append_nil, Option.some.injEq]
      simp only [List.append_assoc, List.cons_append, List.nil_append]
      rfl
    · rw [hm] at h8 h9
      simp only [cond_true] at h8 h9
      simp only [Option.bind_eq_bind, Option.bind_some, cond_true, ofFn_bloom, e2, Option.some.injEq, h8, h9]
      simp only [List.append_assoc, List.cons_append, List.nil_append]
      rfl
  have h2 : observeHashes pv.hashes = some (List.ofFn hh.prev ++ List.ofFn hh.cur) := by
    unfold setHashes at hhh
    split at hhh
    · next hl =>
      cases hhh
      rw [observeHashes, dif_pos hl, ofFn_prev _ hl]
    · cases hhh
  have h3 : observeExtra pv.extra = some (observeExtraT ex) := by
    simp only [setExtra, Option.bind_eq_bind, Option.bind_eq_some_iff, Option.some.injEq] at hex
    obtain ⟨a1, h1, a2, h2, a3, h3, a4, h4, rfl⟩ := hex
    rw [observeExtra, h1, h2, h3, h4]
    rfl
  have h4 : (bif ft.cdk then pv.burn.map fun b => List.ofFn (u256Limbs b) else some []) = some (bif ft.cdk then List.ofFn bn else []) := by
    cases hc : ft.cdk
    · rfl
    · rw [hc, cond_true, Option.map_eq_some_iff] at hbn
      obtain ⟨b, hb, rfl⟩ := hbn
      rw [cond_true, hb]; rfl
  rw [observed, h1, h2, h3, h4]
  rfl

theorem setRegisters_rows {off : ℕ} {r : NRegisters} {l : Registers} (h : setRegisters r = some l) : nRegisters off r = cRegisters off l := by
  simp only [setRegisters, Option.bind_eq_bind, Option.bind_eq_some_iff, Option.some.injEq] at h
  obtain ⟨a, ha, b, hb, c, hc, d, hd, e, he, rfl⟩ := h
  simp only [nRegisters, cRegisters, nrow, crow, limbs_u32 ha, limbs_u32 hb, limbs_u32 hc, limbs_u32 hd, limbs_u32 he, pad_ofFn]

/-- The rows compared with memory outside circuits are, up to their order, the rows compared inside. -/
theorem C81_same_rows (ft : Features) (ker : KernelInfo) (hk : ker.len < 2 ^ 32) (w l : PV) (pv : NPV) (h : setPV ft w pv = some l) :
    ∃ rows, nativeRows ft ker pv = some rows ∧ rows.Perm (circuitRows ft ker l) := by
  simp only [setPV, Option.bind_eq_bind, Option.bind_eq_some_iff, Option.some.injEq] at h
  obtain ⟨md, hmd, hh, hhh, ex, hex, bn, hbn, rb, hrb, ra, hra, mb, hmb, ma, hma, rfl⟩ := h
  have hburn : (bif ft.cdk then pv.burn.map fun b => [ngm .burnAddr b] else some []) =
      some (bif ft.cdk then [cgm .burnAddr (List.ofFn bn)] else []) := by
    cases hc : ft.cdk
    · rfl
    · rw [hc, cond_true, Option.map_eq_some_iff] at hbn
      obtain ⟨b, hb, rfl⟩ := hbn
      rw [cond_true, hb, Option.map_some, cond_true, ngm, nrow, cgm, crow, pad_ofFn]
  have hlen : 256 ≤ pv.hashes.prev.length := by
    unfold setHashes at hhh
    split at hhh
    · assumption
    · cases hhh
  unfold nativeRows
  rw [hburn, nHashes, dif_pos hlen]
  refine ⟨_, rfl, ?_⟩
  rw [setHashes, dif_pos hlen] at hhh
  cases hhh
  have hprev : (List.ofFn fun i : Fin 256 => nrow segBlockHashes i (h2u (pv.hashes.prev[i.val]'(by omega)))) =
      List.ofFn fun i : Fin 256 => crow segBlockHashes i (List.ofFn fun k : Fin 8 =>
        h256Limbs (pv.hashes.prev[(8 * i.val + k.val) / 8]'(by omega)) ⟨(8 * i.val + k.val) % 8, by omega⟩) := by
    congr 1
    funext i
    rw [nrow, crow, pad_ofFn, ← h256Limbs_eq]
    congr 1
    funext k
    have key : ∀ (a c : ℕ) (ha : a < pv.hashes.prev.length) (hc : c < pv.hashes.prev.length) (x y : Fin 8), a = c → x = y →
        h256Limbs pv.hashes.prev[a] x = h256Limbs pv.hashes.prev[c] y := by
      rintro a c _ _ x y rfl rfl; rfl
    exact key _ _ _ _ _ _ (by omega) (Fin.ext (by show k.val = (8 * i.val + k.val) % 8; omega))
  have hbloom : (List.ofFn fun i : Fin 8 => nrow segGlobalBlockBloom i (pv.metadata.bloom i)) =
      List.ofFn fun i : Fin 8 => crow segGlobalBlockBloom i (List.ofFn fun k : Fin 8 => bloomLimbs pv.metadata.bloom ⟨8 * i.val + k.val, by omega⟩) := by
    congr 1
    funext i
    rw [nrow, crow, pad_ofFn]
    congr 1
    funext k
    have key : ∀ a c x y : Fin 8, a = c → x = y → u256Limbs (pv.metadata.bloom a) x = u256Limbs (pv.metadata.bloom c) y := by
      rintro a c x y rfl rfl; rfl
    exact key _ _ _ _ (Fin.ext (by show i.val = (8 * i.val + k.val) / 8; omega)) (Fin.ext (by show k.val = (8 * i.val + k.val) % 8; omega))
  have g32 : ∀ {n : U256} {x : F} (g : GM), u256ToU32 n = some x → ngm g n = cgm g [x] := fun g h => by rw [ngm, nrow, limbs_u32 h]; rfl
  have g64 : ∀ {n : U256} {x : Limbs 2} (g : GM), u256ToU64 n = some x → ngm g n = cgm g (List.ofFn x) := fun g h => by
    rw [ngm, nrow, limbs_u64 h]; rfl
  have gh : ∀ (g : GM) (h : H256), ngm g (h2u h) = cgm g (List.ofFn (h256Limbs h)) := fun g h => by
    rw [ngm, nrow, cgm, crow, pad_ofFn, h256Limbs_eq]
  have gr : ∀ (g : GM) (h : H256), ngm g (h2u h) = cgm g (List.ofFn (u256Limbs (h2u h))) := fun g h => by
    rw [ngm, nrow, cgm, crow, pad_ofFn]
  have glen : ngm .kernelLen (.ofNat 256 ker.len) = cgm .kernelLen [(ker.len : F)] := by
    refine g32 _ ?_
    have : (BitVec.ofNat 256 ker.len).toNat = ker.len := by
      rw [BitVec.toNat_ofNat]; exact Nat.mod_eq_of_lt (hk.trans (by decide))
    rw [u256ToU32, this, if_pos hk]
  have gaddr : ngm .blockBeneficiary (addressToU256 pv.metadata.beneficiary) = cgm .blockBeneficiary (List.ofFn (addressLimbs pv.metadata.beneficiary)) := by
    rw [ngm, nrow, limbs_address]; rfl
  simp only [setMetadata, Option.bind_eq_bind, Option.bind_eq_some_iff, Option.some.injEq] at hmd
  obtain ⟨a1, h1, a2, h2, a3, h3, a4, h4, a5, h5, a6, h6, a7, h7, a8, h8, a9, h9, rfl⟩ := hmd
  simp only [setExtra, Option.bind_eq_bind, Option.bind_eq_some_iff, Option.some.injEq] at hex
  obtain ⟨b1, e1, b2, e2, b3, e3, b4, e4, rfl⟩ := hex
  simp only [hprev, hbloom, gaddr, glen, g32 _ h1, g32 _ h2, g32 _ h3, g32 _ h4, g32 _ h5, g64 _ h6, g32 _ h7, g32 _ e1, g32 _ e2, g32 _ e3, g32 _ e4,
    setRegisters_rows hrb, setRegisters_rows hra, gr .stateTrieRootDigestBefore, gr .transactionTrieRootDigestBefore,
    gr .receiptTrieRootDigestBefore, gr .stateTrieRootDigestAfter, gr .transactionTrieRootDigestAfter, gr .receiptTrieRootDigestAfter, gh .kernelHash,
    gh .blockRandom, gh .blockCurrentHash, gh .parentBeaconBlockRoot, circuitRows, setRoots]
  rw [← Multiset.coe_eq_coe]
  cases hm : ft.mainnet
  · simp only [cond_false, ← Multiset.coe_add, ← Multiset.cons_coe, ← Multiset.singleton_add, Multiset.coe_nil]
    abel
  · rw [hm] at h8 h9
    simp only [cond_true] at h8 h9
    simp only [g64 _ h8, g64 _ h9, cond_true, ← Multiset.coe_add, ← Multiset.cons_coe, ← Multiset.singleton_add, Multiset.coe_nil]
    abel

/-- So both compute the same sum, for every challenge. -/
theorem C81_same_sum (ft : Features) (ker : KernelInfo) (hk : ker.len < 2 ^ 32) (w l : PV) (pv : NPV) (h : setPV ft w pv = some l) (β γ : F) :
    (nativeRows ft ker pv).map (lookingSum β γ) = some (lookingSum β γ (circuitRows ft ker l)) := by
  obtain ⟨rows, h1, h2⟩ := C81_same_rows ft ker hk w l pv h
  rw [h1, Option.map_some]
  exact congrArg some ((h2.map _).sum_eq)

example : ∃ l, setPV ⟨true, true⟩ PV.zero (sampleNPV true) = some l := let ⟨l, h, _⟩ := sample_set ⟨true, true⟩ PV.zero; ⟨l, h⟩

end Verif.Recursion
