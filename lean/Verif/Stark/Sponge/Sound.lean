import Verif.Stark.Sponge.Table

/-! Soundness of the Keccak sponge table, as far as it goes. Property C89. -/

namespace Verif.Stark.Sponge

open Finset Arith

/-! ### Words -/

/-- The `k`-th word of a string of bytes, least significant byte first. -/
def le32 (s : ℕ → ℕ) (k : ℕ) : ℕ := s (4 * k) + s (4 * k + 1) * 256 + s (4 * k + 2) * 65536 + s (4 * k + 3) * 16777216

theorem laneOf_add (f : ℕ → Bool) (a b : ℕ) : Keccak.Spec.laneOf f (a + b) = Keccak.Spec.laneOf f a + 2 ^ a * Keccak.Spec.laneOf (fun z => f (a + z)) b := by
  induction b with
  | zero => simp [Keccak.Spec.laneOf]
  | succ b ih =>
    rw [← add_assoc, Keccak.Spec.laneOf, ih, Keccak.Spec.laneOf, mul_add, add_assoc]
    split <;> simp [pow_add]

theorem limbs_toBytes (A : Keccak.Spec.State) (k : ℕ) : Keccak.limbs A k = (le32 (Spec.toBytes A) k : F) := by
  unfold Keccak.limbs Keccak.limb le32 Spec.toBytes
  congr 1
  rw [show 32 = 8 + (8 + (8 + 8)) from rfl, laneOf_add, laneOf_add, laneOf_add]
  have e : ∀ j < 4, Keccak.Spec.laneOf (fun b => A ((4 * k + j) / 8 % 5) ((4 * k + j) / 8 / 5) (8 * ((4 * k + j) % 8) + b)) 8 =
      Keccak.Spec.laneOf (fun b => A (k / 2 % 5) (k / 2 / 5) (32 * (k % 2) + (8 * j + b))) 8 := by
    intro j hj
    rw [show (4 * k + j) / 8 = k / 2 by omega]
    congr 1
    funext b
    rw [show 8 * ((4 * k + j) % 8) + b = 32 * (k % 2) + (8 * j + b) by omega]
  have e0 := e 0 (by decide)
  have e1 := e 1 (by decide)
  have e2 := e 2 (by decide)
  have e3 := e 3 (by decide)
  simp only [add_zero, mul_zero, zero_add] at e0
  rw [e0, e1, e2, e3]
  simp only [show ∀ b, 8 + (8 + b) = 16 + b from fun b => by omega, show ∀ b, 8 + (16 + b) = 24 + b from fun b => by omega,
    show 8 * 1 = 8 from rfl, show 8 * 2 = 16 from rfl, show 8 * 3 = 24 from rfl]
  ring

theorem le32_congr {s t : ℕ → ℕ} {k : ℕ} (h : ∀ i, 4 * k ≤ i → i < 4 * k + 4 → s i = t i) : le32 s k = le32 t k := by
  unfold le32
  rw [h _ (by omega) (by omega), h _ (by omega) (by omega), h _ (by omega) (by omega), h _ (by omega) (by omega)]

theorem le32_lt {s : ℕ → ℕ} {k : ℕ} (h : ∀ i, 4 * k ≤ i → i < 4 * k + 4 → s i < 256) : le32 s k < 2 ^ 32 := by
  have h0 := h (4 * k) (by omega) (by omega)
  have h1 := h (4 * k + 1) (by omega) (by omega)
  have h2 := h (4 * k + 2) (by omega) (by omega)
  have h3 := h (4 * k + 3) (by omega) (by omega)
  unfold le32
  omega

theorem le32_inj {s t : ℕ → ℕ} {k : ℕ} (hs : ∀ i, 4 * k ≤ i → i < 4 * k + 4 → s i < 256) (ht : ∀ i, 4 * k ≤ i → i < 4 * k + 4 → t i < 256)
    (h : le32 s k = le32 t k) : ∀ i, 4 * k ≤ i → i < 4 * k + 4 → s i = t i := by
  intro i h1 h2
  have s0 := hs (4 * k) (by omega) (by omega)
  have s1 := hs (4 * k + 1) (by omega) (by omega)
  have s2 := hs (4 * k + 2) (by omega) (by omega)
  have s3 := hs (4 * k + 3) (by omega) (by omega)
  have t0 := ht (4 * k) (by omega) (by omega)
  have t1 := ht (4 * k + 1) (by omega) (by omega)
  have t2 := ht (4 * k + 2) (by omega) (by omega)
  have t3 := ht (4 * k + 3) (by omega) (by omega)
  unfold le32 at h
  obtain rfl | rfl | rfl | rfl : i = 4 * k ∨ i = 4 * k + 1 ∨ i = 4 * k + 2 ∨ i = 4 * k + 3 := by omega
  all_goals omega

theorem limbs_ofBytes {s : ℕ → ℕ} {k : ℕ} (hk : k < 50) (hs : ∀ i < 200, s i < 256) : Keccak.limbs (Spec.ofBytes s) k = (le32 s k : F) := by
  rw [limbs_toBytes, le32_congr (fun i _ hi => Spec.toBytes_ofBytes (hs i (by omega)))]

theorem byte_testBit {x j : ℕ} (h : x < 256) (hj : 8 ≤ j) : x.testBit j = false :=
  Nat.testBit_lt_two_pow (lt_of_lt_of_le h (Nat.pow_le_pow_right (n := 2) (by decide) hj))

theorem le32_testBit {s : ℕ → ℕ} {k : ℕ} (h : ∀ i, 4 * k ≤ i → i < 4 * k + 4 → s i < 256) (j : ℕ) :
    (le32 s k).testBit j = (decide (j < 32) && (s (4 * k + j / 8)).testBit (j % 8)) := by
  have h0 := h (4 * k) (by omega) (by omega)
  have h1 := h (4 * k + 1) (by omega) (by omega)
  have h2 := h (4 * k + 2) (by omega) (by omega)
  have h3 := h (4 * k + 3) (by omega) (by omega)
  have e : le32 s k = 2 ^ 8 * (2 ^ 8 * (2 ^ 8 * s (4 * k + 3) + s (4 * k + 2)) + s (4 * k + 1)) + s (4 * k) := by unfold le32; ring
  rw [e, Nat.testBit_two_pow_mul_add _ h0]
  by_cases c0 : j < 8
  · rw [if_pos c0, show j / 8 = 0 by omega, show j % 8 = j by omega, decide_eq_true (by omega)]; rfl
  rw [if_neg c0, Nat.testBit_two_pow_mul_add _ h1]
  by_cases c1 : j < 16
  · rw [if_pos (by omega), show j / 8 = 1 by omega, show j - 8 = j % 8 by omega, decide_eq_true (by omega)]; rfl
  rw [if_neg (by omega), Nat.testBit_two_pow_mul_add _ h2]
  by_cases c2 : j < 24
  · rw [if_pos (by omega), show j / 8 = 2 by omega, show j - 8 - 8 = j % 8 by omega, decide_eq_true (by omega)]; rfl
  rw [if_neg (by omega)]
  by_cases c3 : j < 32
  · rw [show j / 8 = 3 by omega, show j - 8 - 8 - 8 = j % 8 by omega, decide_eq_true c3]; rfl
  · rw [byte_testBit h3 (by omega), decide_eq_false c3]; rfl

theorem le32_xor {s b : ℕ → ℕ} {k : ℕ} (hs : ∀ i, 4 * k ≤ i → i < 4 * k + 4 → s i < 256) (hb : ∀ i, 4 * k ≤ i → i < 4 * k + 4 → b i < 256) :
    le32 (fun i => s i ^^^ b i) k = le32 s k ^^^ le32 b k := by
  refine Nat.eq_of_testBit_eq (fun j => ?_)
  rw [le32_testBit (fun i h1 h2 => Nat.xor_lt_two_pow (n := 8) (hs i h1 h2) (hb i h1 h2)), Nat.testBit_xor, Nat.testBit_xor, le32_testBit hs, le32_testBit hb]
  cases decide (j < 32) <;> simp

theorem word_xor (a b k : ℕ) : (a ^^^ b) / 2 ^ (32 * k) % 2 ^ 32 = (a / 2 ^ (32 * k) % 2 ^ 32) ^^^ (b / 2 ^ (32 * k) % 2 ^ 32) := by
  refine Nat.eq_of_testBit_eq (fun j => ?_)
  simp only [Nat.testBit_xor, Nat.testBit_mod_two_pow, Nat.testBit_div_two_pow]
  cases decide (j < 32) <;> simp

/-! ### One block -/

section
variable {n nL : ℕ} {T L : ℕ → Row F} {perms : List (Keccak.Spec.State × F)}

/-- Every cell of a block holds a byte. -/
theorem Accepted.byte (h : Accepted n T nL L perms) (hn : 136 * n < P) {i : ℕ} (hi : i < n) {j : ℕ} (hj : j < 136) :
    ∃ x : ℕ, x < 256 ∧ T i (BLOCK j) = (x : F) := by
  have hs := sat_iff.1 h.constraints
  obtain ⟨k, hk, he⟩ := h.lookup.mem (l := ⟨fun i => T i (BLOCK j), fun _ => 1⟩) (i := i)
    (by intro l hl k _; obtain ⟨a, -, rfl⟩ := List.mem_map.1 hl; exact .inr rfl) (by simpa [looking] using hn)
    (List.mem_map.2 ⟨j, List.mem_range.2 hj, rfl⟩) hi rfl
  obtain ⟨x, hx, e⟩ := counter_bound (c := fun i => T i COUNTER) (n := n) (m := 255) (by omega) (by decide) ((hs 0 (by omega)).2.1 rfl).counter
    (fun a ha => by have := ((hs a (by omega)).2.2.1 (by omega)).incr; rwa [Nat.mod_eq_of_lt ha] at this)
    (by have := (hs (n - 1) (by omega)).2.2.2 (by omega); simpa using this) k hk
  exact ⟨x, by omega, he.symm.trans e⟩

theorem Accepted.byte_val (h : Accepted n T nL L perms) (hn : 136 * n < P) {i : ℕ} (hi : i < n) {j : ℕ} (hj : j < 136) :
    (T i (BLOCK j)).val < 256 := by
  obtain ⟨x, hx, e⟩ := h.byte hn hi hj
  rw [e, ZMod.val_natCast_of_lt (by unfold P; omega)]
  exact hx

/-- The block of a row. -/
def rowBlock (lv : Row F) (i : ℕ) : ℕ := (lv (BLOCK i)).val

/-- The words of the state after the block has been added to it. -/
theorem xored {lv : Row F} (hL : Satisfies Logic.evalLogic nL L) (hl : LooksUpLogic nL L lv) {st : ℕ → ℕ} (hst : ∀ i < 200, st i < 256)
    (hw : ∀ k < 34, lv (RATE k) = (le32 st k : F)) (hb : ∀ j < 136, (lv (BLOCK j)).val < 256) {k : ℕ} (hk : k < 34) :
    lv (XOR k) = (le32 (Spec.xorBlock st (rowBlock lv)) k : F) := by
  obtain ⟨a, b, out, he, hc⟩ := hl (k / 8) (by omega)
  have hout : out = a ^^^ b := Logic.C41_logic hL he
  obtain ⟨h1, h2, h3⟩ := hc (k % 8) (by omega)
  unfold logicState at h1
  unfold logicBlock at h2
  unfold logicOut at h3
  have e8 : 8 * (k / 8) + k % 8 = k := by omega
  rw [e8] at h1 h2 h3
  rw [if_pos hk] at h1 h2 h3
  rw [show 32 * (k / 8) + 4 * (k % 8) = 4 * k by omega] at h2
  unfold word at h1 h2 h3
  have hbl : le4 lv (BLOCK (4 * k)) = (le32 (rowBlock lv) k : F) := by
    unfold le4 le32 rowBlock
    push_cast
    simp only [BLOCK, add_assoc, val_cast]
  have hsb : ∀ i, 4 * k ≤ i → i < 4 * k + 4 → st i < 256 := fun i _ _ => hst i (by omega)
  have hbb : ∀ i, 4 * k ≤ i → i < 4 * k + 4 → rowBlock lv i < 256 := fun i _ _ => hb i (by omega)
  have n1 := Keccak.cast_inj (le32_lt hsb) (Nat.mod_lt _ (by decide)) ((hw k hk).symm.trans h1)
  have n2 := Keccak.cast_inj (le32_lt hbb) (Nat.mod_lt _ (by decide)) (hbl.symm.trans h2)
  rw [h3, hout, word_xor, ← n1, ← n2, ← le32_xor hsb hbb]
  exact congrArg (Nat.cast (R := F)) <| le32_congr (fun i h1 h2 => by rw [Spec.xorBlock, if_pos (by omega)])

/-- Row by row, the output looked up in the Keccak table is the permutation of the input. -/
def Matched (n : ℕ) (T : ℕ → Row F) : Prop :=
  ∀ i < n, active (T i) = 1 → ∃ A, (keccakIn (T i)).1 = stateWords A ∧ (keccakOut (T i)).1 = stateWords (Keccak.Spec.keccakF A)

theorem getD_stateWords (A : Keccak.Spec.State) {k : ℕ} (hk : k < 50) : (stateWords A).getD k 0 = Keccak.limbs A k := by
  rw [stateWords, List.getD_eq_getElem?_getD, List.getElem?_map, List.getElem?_range hk]; rfl

theorem keccakIn_getD (lv : Row F) {k : ℕ} (hk : k < 50) : (keccakIn lv).1.getD k 0 = if k < 34 then lv (XOR k) else lv (CAP (k - 34)) := by
  unfold keccakIn
  simp only [List.getD_eq_getElem?_getD]
  by_cases h : k < 34
  · rw [List.getElem?_append_left (by simpa using h), List.getElem?_map, List.getElem?_range h, if_pos h]; rfl
  · rw [List.getElem?_append_right (by simp; omega), if_neg h]
    simp only [List.length_map, List.length_range, List.getElem?_map]
    rw [List.getElem?_range (by omega)]; rfl

theorem keccakOut_getD (lv : Row F) {k : ℕ} (hk : k < 50) : (keccakOut lv).1.getD k 0 = if k < 8 then le4 lv (DIG (4 * k)) else lv (PART (k - 8)) := by
  unfold keccakOut
  simp only [List.getD_eq_getElem?_getD]
  by_cases h : k < 8
  · rw [List.getElem?_append_left (by simpa using h), List.getElem?_map, List.getElem?_range h, if_pos h]; rfl
  · rw [List.getElem?_append_right (by simp; omega), if_neg h]
    simp only [List.length_map, List.length_range, List.getElem?_map]
    rw [List.getElem?_range (by omega)]; rfl

/-- The words of the state before a block. -/
def HoldsState (lv : Row F) (st : ℕ → ℕ) : Prop := (∀ k < 34, lv (RATE k) = (le32 st k : F)) ∧ ∀ k < 16, lv (CAP k) = (le32 st (34 + k) : F)

/-- The words of the state after the block. -/
theorem absorbed {lv : Row F} (hL : Satisfies Logic.evalLogic nL L) (hl : LooksUpLogic nL L lv)
    (hm : ∃ A, (keccakIn lv).1 = stateWords A ∧ (keccakOut lv).1 = stateWords (Keccak.Spec.keccakF A)) {st : ℕ → ℕ} (hst : ∀ i < 200, st i < 256)
    (hw : HoldsState lv st) (hb : ∀ j < 136, (lv (BLOCK j)).val < 256) {k : ℕ} (hk : k < 50) :
    (if k < 8 then le4 lv (DIG (4 * k)) else lv (PART (k - 8))) = (le32 (Spec.permute (Spec.xorBlock st (rowBlock lv))) k : F) := by
  obtain ⟨A, hA, hA'⟩ := hm
  have hxl := Spec.xorBlock_lt hst (b := rowBlock lv) hb
  have hsame : Keccak.Spec.Same A (Spec.ofBytes (Spec.xorBlock st (rowBlock lv))) := by
    refine Keccak.limbs_same (fun k hk => ?_)
    rw [← getD_stateWords A hk, ← hA, keccakIn_getD lv hk, limbs_ofBytes hk hxl]
    by_cases h : k < 34
    · rw [if_pos h]
      exact xored hL hl hst hw.1 hb h
    · rw [if_neg h, hw.2 _ (by omega), show 34 + (k - 34) = k by omega]
      exact congrArg (Nat.cast (R := F)) <| le32_congr (fun i h1 h2 => by rw [Spec.xorBlock, if_neg (by omega)])
  rw [← keccakOut_getD lv hk, hA', getD_stateWords _ hk, limbs_toBytes]
  exact congrArg (Nat.cast (R := F)) <| le32_congr (fun i _ hi => Spec.toBytes_congr (Keccak.Spec.rounds_congr 24 hsame) (by omega))

/-! ### One string -/

/-- The rows from `s` to `i` hold blocks of one string, the `s`-th row the first one. -/
structure Run (T : ℕ → Row F) (s i : ℕ) : Prop where
  le : s ≤ i
  full : ∀ r, s ≤ r → r < i → T r FULL = 1
  abs : ∀ r, s ≤ r → r ≤ i → T r ABS = ((136 * (r - s) : ℕ) : F)
  same : ∀ r, s ≤ r → r ≤ i → T r CTX = T i CTX ∧ T r SEG = T i SEG ∧ T r VIRT = T i VIRT ∧ T r TS = T i TS

/-- The blocks of the rows from `s`. -/
def blocks (T : ℕ → Row F) (s k : ℕ) : ℕ → ℕ := rowBlock (T (s + k))

theorem active_iff {lv : Row F} (h : RowOk lv) : active lv = 1 ↔ lv FULL = 1 ∨ lv (PAD 135) = 1 := by
  unfold active
  rcases h.full with f | f <;> rcases h.pad 135 (by decide) with p | p <;> rcases h.excl with e | e <;> simp_all

theorem le32_zero (k : ℕ) : le32 (fun _ => 0) k = 0 := by simp only [le32, Nat.zero_mul, Nat.add_zero]

theorem run (h : Accepted n T nL L perms) (hn : 136 * n < P) (hm : Matched n T) {i : ℕ} (hi : i < n) (ha : active (T i) = 1) :
    ∃ s, Run T s i ∧ HoldsState (T i) (Spec.sponge (blocks T s) (i - s)) := by
  have hs := sat_iff.1 h.constraints
  have start : ∀ i, T i ABS = 0 → (∀ k < 34, T i (RATE k) = 0) → (∀ k < 16, T i (CAP k) = 0) →
      ∃ s, Run T s i ∧ HoldsState (T i) (Spec.sponge (blocks T s) (i - s)) := by
    intro i h1 h2 h3
    refine ⟨i, ⟨le_rfl, fun r _ _ => by omega, fun r _ _ => ?_, fun r _ _ => ?_⟩, fun k hk => ?_, fun k hk => ?_⟩
    · rw [show r = i by omega, h1, Nat.sub_self]; simp
    · rw [show r = i by omega]; exact ⟨rfl, rfl, rfl, rfl⟩
    · rw [h2 k hk, Nat.sub_self, Spec.sponge, le32_zero, Nat.cast_zero]
    · rw [h3 k hk, Nat.sub_self, Spec.sponge, le32_zero, Nat.cast_zero]
  induction i with
  | zero => exact start 0 ((hs 0 hi).2.1 rfl).abs ((hs 0 hi).2.1 rfl).rate ((hs 0 hi).2.1 rfl).cap
  | succ i ih =>
    obtain ⟨hr, -, hnx, -⟩ := hs i (by omega)
    have hr' := (hs (i + 1) hi).1
    have hnx := hnx (by omega)
    rw [Nat.mod_eq_of_lt hi] at hnx
    have hact : T i FULL = 1 ∨ T i (PAD 135) = 1 := by
      by_contra hc
      push Not at hc
      have f := hr.full.resolve_right hc.1
      have p := (hr.pad 135 (by decide)).resolve_right hc.2
      have := hnx.dummy
      rw [f, p, sub_zero, sub_zero, one_mul] at this
      have ha : T (i + 1) FULL + T (i + 1) (PAD 135) = 1 := ha
      rw [ha] at this
      exact one_ne_zero this
    rcases hact with hf | hp
    · have ha' : active (T i) = 1 := (active_iff hr).2 (.inl hf)
      obtain ⟨s, hrun, hst⟩ := ih (by omega) ha'
      have hle := hrun.le
      have eq : ∀ {a b : F}, T i FULL * (a - b) = 0 → a = b := fun h => by rw [hf, one_mul] at h; exact sub_eq_zero.1 h
      have hout : ∀ k < 50, (if k < 8 then le4 (T i) (DIG (4 * k)) else T i (PART (k - 8))) = (le32 (Spec.sponge (blocks T s) (i + 1 - s)) k : F) := by
        intro k hk
        rw [show i + 1 - s = (i - s) + 1 by omega, Spec.sponge, blocks, show s + (i - s) = i by omega]
        exact absorbed h.logicTable (h.logic i (by omega) ha') (hm i (by omega) ha') (fun j _ => Spec.sponge_lt _ _ _) hst
          (fun j hj => h.byte_val hn (by omega) hj) hk
      refine ⟨s, ⟨by omega, fun r h1 h2 => ?_, fun r h1 h2 => ?_, fun r h1 h2 => ?_⟩, fun k hk => ?_, fun k hk => ?_⟩
      · by_cases hri : r = i
        · rw [hri]; exact hf
        · exact hrun.full r h1 (by omega)
      · by_cases hri : r = i + 1
        · have := hrun.abs i hle le_rfl
          rw [hri, ← eq hnx.abs, this, show 136 * (i + 1 - s) = 136 * (i - s) + 136 by omega]
          push_cast
          rfl
        · exact hrun.abs r h1 (by omega)
      · by_cases hri : r = i + 1
        · rw [hri]; exact ⟨rfl, rfl, rfl, rfl⟩
        · obtain ⟨a, b, c, d⟩ := hrun.same r h1 (by omega)
          exact ⟨a.trans (eq hnx.ctx), b.trans (eq hnx.seg), c.trans (eq hnx.virt), d.trans (eq hnx.ts)⟩
      · have := hout k (by omega)
        by_cases h8 : k < 8
        · rw [if_pos h8] at this
          rw [← this]; exact eq (hnx.dig k h8)
        · rw [if_neg h8] at this
          have e := eq (hnx.rate (k - 8) (by omega))
          rw [show 8 + (k - 8) = k by omega] at e
          rw [← this]; exact e
      · have := hout (34 + k) (by omega)
        rw [if_neg (by omega)] at this
        rw [← this, show 34 + k - 8 = 26 + k by omega]
        exact eq (hnx.cap k hk)
    · have eq : ∀ {a : F}, T i (PAD 135) * a = 0 → a = 0 := fun h => by rwa [hp, one_mul] at h
      exact start (i + 1) (eq hnx.resetAbs) (fun k hk => eq (hnx.resetRate k hk)) (fun k hk => eq (hnx.resetCap k hk))

/-! ### Padding -/

theorem pad_getD_lt {m : List ℕ} {j : ℕ} (h : j < m.length) : (Spec.pad m).getD j 0 = m.getD j 0 := by
  unfold Spec.pad
  simp only [List.getD_eq_getElem?_getD]
  split
  · rw [List.getElem?_append_left h]
  · rw [List.append_assoc, List.append_assoc, List.getElem?_append_left h]

/-- The bytes after the message. -/
def padByte (p x : ℕ) : ℕ := if p = 135 then 0x81 else if x = p then 1 else if x = 135 then 0x80 else 0

theorem pad_getD_ge {m : List ℕ} {x : ℕ} (h : m.length % 136 ≤ x) (hx : x < 136) :
    (Spec.pad m).getD (136 * (m.length / 136) + x) 0 = padByte (m.length % 136) x := by
  unfold Spec.pad padByte
  have hlen : m.length = 136 * (m.length / 136) + m.length % 136 := by omega
  simp only [List.getD_eq_getElem?_getD]
  split
  · rw [List.getElem?_append_right (by omega), show 136 * (m.length / 136) + x - m.length = 0 by omega]; rfl
  · rename_i hp
    rw [List.append_assoc, List.append_assoc, List.getElem?_append_right (by omega)]
    by_cases hxp : x = m.length % 136
    · rw [if_pos hxp, show 136 * (m.length / 136) + x - m.length = 0 by omega]; rfl
    · rw [if_neg hxp, List.getElem?_append_right (by simp; omega)]
      by_cases hx' : x = 135
      · rw [if_pos hx', List.getElem?_append_right (by simp; omega)]
        simp only [List.length_singleton, List.length_replicate]
        rw [show 136 * (m.length / 136) + x - m.length - 1 - (134 - m.length % 136) = 0 by omega]; rfl
      · rw [if_neg hx', List.getElem?_append_left (by simp; omega), List.getElem?_replicate]
        split <;> rfl

/-- The padding flags of a final block are set from some position on. -/
theorem RowOk.pads {lv : Row F} (h : RowOk lv) (hp : lv (PAD 135) = 1) : ∃ p ≤ 135, ∀ j < 136, lv (PAD j) = if p ≤ j then 1 else 0 := by
  have hex : ∃ p, p < 136 ∧ lv (PAD p) = 1 := ⟨135, by decide, hp⟩
  classical
  obtain ⟨h1, h2⟩ := Nat.find_spec hex
  refine ⟨Nat.find hex, by omega, fun j hj => ?_⟩
  split
  · rename_i hle
    induction j with
    | zero => rw [← h2]; congr 1; simp only [PAD]; omega
    | succ j ih =>
      by_cases he : Nat.find hex = j + 1
      · rw [← he]; exact h2
      · have := ih (by omega) (by omega)
        rcases h.mono j (by omega) with h0 | h0
        · rw [this] at h0; exact absurd h0 one_ne_zero
        · exact h0
  · rename_i hlt
    exact (h.pad j hj).resolve_right (fun he => Nat.find_min hex (by omega) ⟨hj, he⟩)

theorem lenCol_eq {lv : Row F} {p : ℕ} (hp : p ≤ 135) (h : ∀ j < 136, lv (PAD j) = if p ≤ j then 1 else 0) : lenCol lv = lv ABS + (p : F) := by
  unfold lenCol
  rw [BytePacking.list_range_sum]
  have e : ∀ m ≤ 136, ∑ i ∈ range m, -lv (PAD i) = -((m - p : ℕ) : F) := by
    intro m
    induction m with
    | zero => simp
    | succ m ih =>
      intro hm
      rw [sum_range_succ, ih (by omega), h m (by omega)]
      by_cases hpm : p ≤ m
      · rw [if_pos hpm, show m + 1 - p = (m - p) + 1 by omega]; push_cast; ring
      · rw [if_neg hpm, show m + 1 - p = 0 by omega, show m - p = 0 by omega]; simp
  rw [e 136 le_rfl, Nat.cast_sub (by omega)]
  push_cast
  ring

/-- The bytes of a final block that belong to the padding. -/
theorem NextOk.padding {lv nv : Row F} (h : NextOk lv nv) {p : ℕ} (hp : p ≤ 135) (hpad : ∀ j < 136, lv (PAD j) = if p ≤ j then 1 else 0) {x : ℕ}
    (h1 : p ≤ x) (h2 : x < 136) : lv (BLOCK x) = (padByte p x : F) := by
  have hsingle : Sponge.single lv = if p = 135 then 1 else 0 := by
    unfold Sponge.single
    rw [hpad 135 (by decide), hpad 134 (by decide), if_pos hp]
    by_cases hp' : p = 135
    · rw [if_pos hp', if_neg (by omega), sub_zero]
    · rw [if_neg hp', if_pos (by omega), sub_self]
  have hfirst : ∀ j < 136, firstPad lv j = if j = p then 1 else 0 := by
    intro j hj
    unfold firstPad
    rw [hpad j hj, hpad (j - 1) (by omega)]
    by_cases hj0 : 0 < j
    · rw [if_pos hj0]
      by_cases hjp : j = p
      · rw [if_pos (by omega), if_neg (by omega), if_pos hjp, sub_zero]
      · rw [if_neg hjp]
        by_cases hpj : p ≤ j
        · rw [if_pos hpj, if_pos (by omega), sub_self]
        · rw [if_neg hpj, if_neg (by omega), sub_self]
    · rw [if_neg hj0]
      by_cases hjp : j = p
      · rw [if_pos (by omega), if_pos hjp]
      · rw [if_neg (by omega), if_neg hjp]
  unfold padByte
  by_cases hp' : p = 135
  · have := h.single
    rw [hsingle, if_pos hp', one_mul, sub_eq_zero] at this
    rw [if_pos hp', show x = 135 by omega, this]; rfl
  · rw [if_neg hp']
    by_cases hxp : x = p
    · have := h.first x (by omega)
      rw [hfirst x h2, if_pos hxp, one_mul, sub_eq_zero] at this
      rw [if_pos hxp, this, Nat.cast_one]
    · rw [if_neg hxp]
      by_cases hx : x = 135
      · have := h.last
        rw [hsingle, if_neg hp', hpad 135 (by decide), if_pos hp] at this
        have e : lv (BLOCK 135) - 0x80 = 0 := by linear_combination -this
        rw [if_pos hx, hx, sub_eq_zero.1 e]; rfl
      · have := h.zero x (by omega)
        rw [hfirst x h2, if_neg hxp, hpad x h2, if_pos h1] at this
        have e : lv (BLOCK x) = 0 := by linear_combination -this
        rw [if_neg hx, e, Nat.cast_zero]

/-! ### The string -/

/-- The string in the rows from `s`. -/
def message (T : ℕ → Row F) (s len : ℕ) : List ℕ := (List.range len).map (fun j => blocks T s (j / 136) (j % 136))

theorem message_getD (T : ℕ → Row F) (s : ℕ) {len j : ℕ} (h : j < len) : (message T s len).getD j 0 = blocks T s (j / 136) (j % 136) := by
  rw [message, List.getD_eq_getElem?_getD, List.getElem?_map, List.getElem?_range h]; rfl

/-- The blocks of the padded string are the blocks of the rows. -/
theorem blockOf_message {T : ℕ → Row F} {s K p : ℕ} (hp : p ≤ 135) (hpad : ∀ x, p ≤ x → x < 136 → blocks T s K x = padByte p x) {t x : ℕ} (ht : t < K + 1)
    (hx : x < 136) : Spec.blockOf (Spec.pad (message T s (136 * K + p))) t x = blocks T s t x := by
  have hlen : (message T s (136 * K + p)).length = 136 * K + p := by simp [message]
  unfold Spec.blockOf
  by_cases hlt : 136 * t + x < 136 * K + p
  · rw [pad_getD_lt (by omega), message_getD _ _ hlt, show (136 * t + x) / 136 = t by omega, show (136 * t + x) % 136 = x by omega]
  · have htK : t = K := by omega
    have := pad_getD_ge (m := message T s (136 * K + p)) (x := x) (by rw [hlen]; omega) hx
    rw [hlen, show (136 * K + p) / 136 = K by omega, show (136 * K + p) % 136 = p by omega] at this
    rw [htK, this, hpad x (by omega) hx]

/-- The digest a row shows, if the cells of the digest hold bytes. -/
theorem digest_word {lv : Row F} {d : ℕ → ℕ} (hd : ∀ j < 32, lv (DIG j) = (d j : F)) (hb : ∀ j < 32, d j < 256) {k : ℕ} (hk : k < 8) :
    be4 lv (DIG (4 * (7 - k))) = word (BytePacking.beNat ((List.range 32).map d)) k := by
  let l := ((List.range 32).map d).reverse
  have hl : ∀ b ∈ l, b < 256 := by
    intro b hb'
    obtain ⟨j, hj, rfl⟩ := List.mem_map.1 (List.mem_reverse.1 hb')
    exact hb j (List.mem_range.1 hj)
  have hdig : ∀ j < 32, BytePacking.beNat ((List.range 32).map d) / 256 ^ j % 256 = d (31 - j) := by
    intro j hj
    have := BytePacking.beNat_digit l hl j
    rw [List.reverse_reverse] at this
    rw [this, List.getD_eq_getElem?_getD, List.getElem?_reverse (by simpa using hj)]
    simp only [List.length_map, List.length_range, List.getElem?_map]
    rw [List.getElem?_range (by omega)]
    rfl
  have hw : BytePacking.beNat ((List.range 32).map d) / 2 ^ (32 * k) % 2 ^ 32 < 2 ^ 32 := Nat.mod_lt _ (by decide)
  have h0 := hdig (4 * k + 0) (by omega)
  have h1 := hdig (4 * k + 1) (by omega)
  have h2 := hdig (4 * k + 2) (by omega)
  have h3 := hdig (4 * k + 3) (by omega)
  rw [BytePacking.byte_word _ k (by decide)] at h0 h1 h2 h3
  unfold word be4
  simp only [DIG, add_assoc]
  rw [← DIG, ← DIG, ← DIG, ← DIG, hd _ (by omega), hd _ (by omega), hd _ (by omega), hd _ (by omega), show 4 * (7 - k) = 31 - (4 * k + 3) by omega,
    show 31 - (4 * k + 3) + 1 = 31 - (4 * k + 2) by omega, show 31 - (4 * k + 3) + 2 = 31 - (4 * k + 1) by omega,
    show 31 - (4 * k + 3) + 3 = 31 - (4 * k + 0) by omega, ← h0, ← h1, ← h2, ← h3]
  generalize BytePacking.beNat ((List.range 32).map d) / 2 ^ (32 * k) % 2 ^ 32 = w at hw ⊢
  have : w = w / 256 ^ 0 % 256 + 256 * (w / 256 ^ 1 % 256) + 65536 * (w / 256 ^ 2 % 256) + 16777216 * (w / 256 ^ 3 % 256) := by
    norm_num
    norm_num at hw
    omega
  conv_rhs => rw [this]
  push_cast
  ring

/-- What it means that a hash is right: there is a string of bytes of the given length, read from memory at the given address and time, and the
words are those of its Keccak-256 hash, read as a number, most significant byte first. -/
def Hash.Right (h : Hash) (n : ℕ) (T : ℕ → Row F) : Prop :=
  ∃ m : List ℕ, (∀ b ∈ m, b < 256) ∧ m.length < P ∧ h.len = (m.length : F) ∧
    (∀ j (hj : j < m.length), Accesses n T ⟨1, h.ctx, h.seg, h.virt + (j : F), (m[j] : F), h.ts⟩) ∧
    ∀ k < 8, h.word k = Sponge.word (BytePacking.beNat (Spec.keccak256 m)) k

theorem sound (h : Accepted n T nL L perms) (hn : 136 * n < P) (hm : Matched n T) {i : ℕ} (hi : i + 1 < n)
    (hd : ∀ j < 32, ∃ x : ℕ, x < 256 ∧ T i (DIG j) = (x : F)) {e : Hash} (he : Shows (T i) e) : e.Right n T := by
  have hs := sat_iff.1 h.constraints
  obtain ⟨hfin, hctx, hseg, hvirt, hlen, hts, hword⟩ := he
  obtain ⟨hr, -, hnx, -⟩ := hs i (by omega)
  have hnx := hnx (by omega)
  have ha : active (T i) = 1 := (active_iff hr).2 (.inr hfin)
  obtain ⟨s, hrun, hst⟩ := run h hn hm (by omega) ha
  obtain ⟨p, hp, hpad⟩ := hr.pads hfin
  have hle := hrun.le
  have hbyte : ∀ r < n, ∀ j < 136, T r (BLOCK j) = (rowBlock (T r) j : F) ∧ rowBlock (T r) j < 256 :=
    fun r hr j hj => ⟨(val_cast _).symm, h.byte_val hn hr hj⟩
  have hpb : ∀ x, p ≤ x → x < 136 → blocks T s (i - s) x = padByte p x := by
    intro x h1 h2
    have e := hnx.padding hp hpad h1 h2
    have hlt : padByte p x < 256 := by unfold padByte; split_ifs <;> decide
    unfold blocks
    rw [show s + (i - s) = i by omega]
    exact lift_nat ((hbyte i (by omega) x h2).1.symm.trans e) (by have := (hbyte i (by omega) x h2).2; unfold P; omega) (by unfold P; omega)
  have hmlen : (message T s (136 * (i - s) + p)).length = 136 * (i - s) + p := by simp [message]
  refine ⟨message T s (136 * (i - s) + p), ?_, by rw [hmlen]; omega, ?_, ?_, ?_⟩
  · intro b hb
    obtain ⟨j, hj, rfl⟩ := List.mem_map.1 hb
    have := List.mem_range.1 hj
    exact (hbyte (s + j / 136) (by omega) (j % 136) (by omega)).2
  · rw [← hlen, lenCol_eq hp hpad, hrun.abs i hle le_rfl, hmlen]
    push_cast
    rfl
  · intro j hj
    rw [hmlen] at hj
    have hrow : s + j / 136 ≤ i := by omega
    obtain ⟨c1, c2, c3, c4⟩ := hrun.same (s + j / 136) (by omega) hrow
    refine ⟨s + j / 136, by omega, j % 136, by omega, ?_, ?_⟩
    · have hr' := (hs (s + j / 136) (by omega)).1
      unfold memFilter
      by_cases hri : s + j / 136 = i
      · have hjp : j % 136 < p := by omega
        have hf : T i FULL = 0 := by
          rcases hr.excl with e | e
          · rw [hfin] at e; exact absurd e one_ne_zero
          · exact e
        rw [if_neg (by omega), hri, hpad (j % 136) (by omega), if_neg (by omega), hfin, hf]
        ring
      · have hf := hrun.full (s + j / 136) (by omega) (by omega)
        have hfin0 : T (s + j / 136) (PAD 135) = 0 := by
          rcases hr'.excl with e | e
          · exact e
          · rw [hf] at e; exact absurd e one_ne_zero
        have hpad0 : ∀ d x, x + d = 135 → T (s + j / 136) (PAD x) = 0 := by
          intro d
          induction d with
          | zero => intro x hx; rw [show x = 135 by omega]; exact hfin0
          | succ d ih =>
            intro x hx
            rcases hr'.mono x (by omega) with e | e
            · exact e
            · rw [ih (x + 1) (by omega)] at e; exact absurd e.symm one_ne_zero
        split
        · exact hf
        · rw [hf, hfin0, hpad0 (135 - j % 136) (j % 136) (by omega)]; ring
    · have hv : (message T s (136 * (i - s) + p))[j]'(by rw [hmlen]; exact hj) = rowBlock (T (s + j / 136)) (j % 136) := by
        simp only [message, List.getElem_map, List.getElem_range, blocks]
      have hj' : ((136 * (j / 136) : ℕ) : F) + ((j % 136 : ℕ) : F) = (j : F) := by
        rw [← Nat.cast_add, show 136 * (j / 136) + j % 136 = j by omega]
      have habs := hrun.abs (s + j / 136) (by omega) hrow
      rw [show s + j / 136 - s = j / 136 by omega] at habs
      unfold memAccess
      rw [hv, c1, c2, c3, c4, hctx, hseg, hvirt, hts, (hbyte (s + j / 136) (by omega) (j % 136) (by omega)).1, habs, add_assoc, hj']
  · choose d hd1 hd2 using fun j (hj : j < 32) => hd j hj
    have hdig : ∀ j < 32, T i (DIG j) = ((T i (DIG j)).val : F) ∧ (T i (DIG j)).val < 256 := by
      intro j hj
      refine ⟨(val_cast _).symm, ?_⟩
      rw [hd2 j hj, ZMod.val_natCast_of_lt (by have := hd1 j hj; unfold P; omega)]
      exact hd1 j hj
    have hout : ∀ j < 32, (T i (DIG j)).val = Spec.sponge (blocks T s) (i - s + 1) j := by
      intro j hj
      have := absorbed h.logicTable (h.logic i (by omega) ha) (hm i (by omega) ha) (fun j _ => Spec.sponge_lt _ _ _) hst
        (fun j hj => h.byte_val hn (by omega) hj) (k := j / 4) (by omega)
      rw [if_pos (by omega)] at this
      have hle4 : le4 (T i) (DIG (4 * (j / 4))) = (le32 (fun j => (T i (DIG j)).val) (j / 4) : F) := by
        unfold le4 le32
        push_cast
        simp only [DIG, add_assoc, val_cast]
      have hb1 : ∀ x, 4 * (j / 4) ≤ x → x < 4 * (j / 4) + 4 → (T i (DIG x)).val < 256 := fun x h1 h2 => (hdig x (by omega)).2
      have hn' := Keccak.cast_inj (le32_lt hb1) (le32_lt (fun x _ _ => Spec.toBytes_lt _ _)) (hle4.symm.trans this)
      have := le32_inj hb1 (fun x _ _ => Spec.toBytes_lt _ _) hn' j (by omega) (by omega)
      rw [this, Spec.sponge, blocks, show s + (i - s) = i by omega]
      rfl
    intro k hk
    rw [← hword k hk, digest_word (d := fun j => (T i (DIG j)).val) (fun j hj => (hdig j hj).1) (fun j hj => (hdig j hj).2) hk]
    unfold Spec.keccak256
    rw [Spec.pad_length, hmlen, show 136 * ((136 * (i - s) + p) / 136 + 1) / 136 = i - s + 1 by omega]
    refine congrArg (fun l => Sponge.word (BytePacking.beNat l) k) (List.map_congr_left (fun j hj => ?_))
    have hj := List.mem_range.1 hj
    rw [hout j hj]
    exact (Spec.sponge_congr (fun t ht x hx => blockOf_message hp hpb ht hx) (by omega)).symm

/-- If no two blocks have the same time, the lookups in the Keccak table match row by row. -/
theorem matched_of_times (h : Accepted n T nL L perms) (ht : ((activeRows n T).map (fun i => T i TS)).Nodup) : Matched n T := by
  have htp : (perms.map Prod.snd).Nodup := by
    have := h.inputs.map Prod.snd
    simp only [List.map_map] at this
    exact (this.nodup_iff).1 ht
  intro i hi ha
  have hmem : i ∈ activeRows n T := List.mem_filter.2 ⟨List.mem_range.2 hi, decide_eq_true ha⟩
  obtain ⟨p, hp, hp1⟩ := List.mem_map.1 ((h.inputs.mem_iff).1 (List.mem_map.2 ⟨i, hmem, rfl⟩))
  obtain ⟨q, hq, hq1⟩ := List.mem_map.1 ((h.outputs.mem_iff).1 (List.mem_map.2 ⟨i, hmem, rfl⟩))
  have hpq : p = q := List.inj_on_of_nodup_map htp hp hq (by
    have e1 : p.2 = (keccakIn (T i)).2 := congrArg Prod.snd hp1
    have e2 : q.2 = (keccakOut (T i)).2 := congrArg Prod.snd hq1
    exact e1.trans e2.symm)
  exact ⟨p.1, (congrArg Prod.fst hp1).symm, by rw [hpq]; exact (congrArg Prod.fst hq1).symm⟩

end

end Verif.Stark.Sponge
