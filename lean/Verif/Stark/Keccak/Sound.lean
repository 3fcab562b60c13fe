import Verif.Stark.Keccak.Table

/-! What the constraints of the Keccak table say, row by row, and the permutation they compute when the bit columns hold bits. -/

namespace Verif.Stark.Keccak

open Finset

/-! ### The constraints in readable form -/

/-- The constraints of a single row. -/
structure RowOk (lv : Row F) : Prop where
  flags : ∀ j < 24, lv j * (lv j - 1) = 0
  cPrime : ∀ x < 5, ∀ z < 64, lv (regC' x z) - xor3Gen (lv (regC x z)) (lv (regC ((x + 4) % 5) z)) (lv (regC ((x + 1) % 5) ((z + 63) % 64))) = 0
  input : ∀ x < 5, ∀ y < 5, fold32 (inBit lv x y) 0 - lv (regA x y) = 0 ∧ fold32 (inBit lv x y) 32 - lv (regA x y + 1) = 0
  diff : ∀ x < 5, ∀ z < 64, (((List.range 5).map (fun i => lv (regA' x i z))).sum - lv (regC' x z)) *
    (((List.range 5).map (fun i => lv (regA' x i z))).sum - lv (regC' x z) - 2) *
    (((List.range 5).map (fun i => lv (regA' x i z))).sum - lv (regC' x z) - 4) = 0
  chi : ∀ x < 5, ∀ y < 5, fold32 (chiBit lv x y) 0 - lv (regA'' x y) = 0 ∧ fold32 (chiBit lv x y) 32 - lv (regA'' x y + 1) = 0
  bits : fold32 (fun i => lv (regBit i)) 0 - lv (regA'' 0 0) = 0 ∧ fold32 (fun i => lv (regBit i)) 32 - lv (regA'' 0 0 + 1) = 0
  iota : fold32 (fun i => xorGen (lv (regBit i)) (rcBitSel lv i)) 0 - lv (regA3 0 0) = 0 ∧
    fold32 (fun i => xorGen (lv (regBit i)) (rcBitSel lv i)) 32 - lv (regA3 0 0 + 1) = 0

/-- The constraints of the first row. -/
structure FirstOk (lv : Row F) : Prop where
  one : sumFlags lv * (lv 0 - 1) = 0
  others : ∀ j < 23, sumFlags lv * lv (j + 1) = 0

/-- The constraints between a row and the next one. -/
structure NextOk (lv nv : Row F) : Prop where
  flags : ∀ j < 24, sumFlags nv * (nv ((j + 1) % 24) - lv j) + (sumFlags nv - 1) * sumFlags lv * (lv 23 - 1) = 0
  pad : sumFlags nv * (sumFlags lv - 1) = 0
  link : ∀ x < 5, ∀ y < 5, (1 - lv 23) * (lv (regA3 x y) - nv (regA x y)) = 0 ∧ (1 - lv 23) * (lv (regA3 x y + 1) - nv (regA x y + 1)) = 0

theorem forall_lanesXY {p : ℕ × ℕ → Prop} : (∀ q ∈ lanesXY, p q) ↔ ∀ x < 5, ∀ y < 5, p (x, y) := by
  simp only [lanesXY, List.forall_mem_flatMap, List.forall_mem_map, List.mem_range]

theorem forall_bitsXZ {p : ℕ × ℕ → Prop} : (∀ q ∈ bitsXZ, p q) ↔ ∀ x < 5, ∀ z < 64, p (x, z) := by
  simp only [bitsXZ, List.forall_mem_flatMap, List.forall_mem_map, List.mem_range]

/-- The constraints of a table, row by row. -/
theorem sat_iff {n : ℕ} {T : ℕ → Row F} : Satisfies evalKeccak n T ↔ ∀ i < n, RowOk (T i) ∧ (i = 0 → FirstOk (T i)) ∧
    (i + 1 ≠ n → NextOk (T i) (T ((i + 1) % n))) ∧
    sumFlags (T i) * (1 - T i 23) * (T ((i + 1) % n) TIMESTAMP - T i TIMESTAMP) = 0 := by
  refine forall_congr' (fun i => forall_congr' (fun _ => ?_))
  unfold evalKeccak evalRoundFlags
  simp only [List.forall_mem_append, List.forall_mem_map, List.forall_mem_flatMap, List.forall_mem_cons, List.mem_range, forall_lanesXY, forall_bitsXZ,
    When.applies, true_implies, List.not_mem_nil, false_implies, implies_true, and_true]
  constructor
  · rintro ⟨⟨⟨⟨⟨⟨⟨⟨⟨⟨⟨h1, h2⟩, h3⟩, h4⟩, h5⟩, h6⟩, h7⟩, h8⟩, h9⟩, h10⟩, h11, h12, h13, h14⟩, h15⟩
    exact ⟨⟨h1, h7, h8, h9, h10, ⟨h11, h12⟩, ⟨h13, h14⟩⟩, fun h => ⟨h2 h, fun j hj => h3 j hj h⟩,
      fun h => ⟨fun j hj => h4 j hj h, h5 h, fun x hx y hy => ⟨(h15 x hx y hy).1 h, (h15 x hx y hy).2 h⟩⟩, h6⟩
  · rintro ⟨⟨h1, h7, h8, h9, h10, ⟨h11, h12⟩, ⟨h13, h14⟩⟩, hf, hn, h6⟩
    exact ⟨⟨⟨⟨⟨⟨⟨⟨⟨⟨⟨h1, fun h => (hf h).one⟩, fun j hj h => (hf h).others j hj⟩, fun j hj h => (hn h).flags j hj⟩, fun h => (hn h).pad⟩, h6⟩, h7⟩, h8⟩, h9⟩,
      h10⟩, h11, h12, h13, h14⟩, fun x hx y hy => ⟨fun h => ((hn h).link x hx y hy).1, fun h => ((hn h).link x hx y hy).2⟩⟩

/-! ### The round flags -/

/-- The row is one of round `k`. -/
def StepIs (lv : Row F) (k : ℕ) : Prop := k < 24 ∧ lv k = 1 ∧ ∀ j < 24, j ≠ k → lv j = 0

/-- The row is padding. -/
def Pad (lv : Row F) : Prop := ∀ j < 24, lv j = 0

theorem sum_list (lv : Row F) : sumFlags lv = ∑ j ∈ range 24, lv j := by
  unfold sumFlags
  rw [Finset.sum_range, ← List.sum_ofFn, List.ofFn_eq_map]
  simp [NUM_ROUNDS, List.range_succ, List.finRange_succ]

theorem StepIs.sum {lv : Row F} {k : ℕ} (h : StepIs lv k) : sumFlags lv = 1 := by
  rw [sum_list, sum_eq_single_of_mem k (mem_range.2 h.1) (fun j hj hne => h.2.2 j (mem_range.1 hj) hne), h.2.1]

theorem Pad.sum {lv : Row F} (h : Pad lv) : sumFlags lv = 0 := by
  rw [sum_list, sum_eq_zero (fun j hj => h j (mem_range.1 hj))]

theorem bit_cases {v : F} (h : v * (v - 1) = 0) : v = 0 ∨ v = 1 := by
  rcases mul_eq_zero.1 h with h | h
  · exact .inl h
  · exact .inr (sub_eq_zero.1 h)

theorem pad_of_sum {lv : Row F} (hb : ∀ j < 24, lv j * (lv j - 1) = 0) (h : sumFlags lv = 0) : Pad lv := by
  have hv : ∀ j < 24, lv j = ((lv j).val : F) ∧ (lv j).val ≤ 1 := by
    intro j hj
    have e1 : (1 : F).val = 1 := by decide +kernel
    rcases bit_cases (hb j hj) with h | h <;> rw [h]
    · simp
    · rw [e1]; simp
  rw [sum_list, sum_congr rfl (fun j hj => (hv j (mem_range.1 hj)).1), ← Nat.cast_sum] at h
  have hle : ∑ j ∈ range 24, (lv j).val ≤ 24 := (sum_le_card_nsmul _ _ 1 (fun j hj => (hv j (mem_range.1 hj)).2)).trans (by simp)
  have hz : ∑ j ∈ range 24, (lv j).val = 0 := by
    rcases Nat.eq_zero_or_pos (∑ j ∈ range 24, (lv j).val) with h0 | h0
    · exact h0
    · have := Nat.le_of_dvd h0 ((ZMod.natCast_eq_zero_iff _ P).1 h)
      have : (24 : ℕ) < P := by decide
      omega
  intro j hj
  rw [(hv j hj).1, (sum_eq_zero_iff.1 hz) j (mem_range.2 hj), Nat.cast_zero]

theorem first_flags {lv : Row F} (hr : RowOk lv) (hf : FirstOk lv) : StepIs lv 0 ∨ Pad lv := by
  by_cases h : sumFlags lv = 0
  · exact .inr (pad_of_sum hr.flags h)
  · refine .inl ⟨by decide, ?_, ?_⟩
    · exact sub_eq_zero.1 ((mul_eq_zero.1 hf.one).resolve_left h)
    · intro j hj hne
      obtain ⟨j, rfl⟩ := Nat.exists_eq_succ_of_ne_zero hne
      exact (mul_eq_zero.1 (hf.others j (by omega))).resolve_left h

/-- After a round comes the next one; after the last one the first one or padding; after padding comes padding. -/
theorem next_flags {lv nv : Row F} (hr : RowOk nv) (hn : NextOk lv nv) :
    (∀ k < 23, StepIs lv k → StepIs nv (k + 1)) ∧ (StepIs lv 23 → StepIs nv 0 ∨ Pad nv) ∧ (Pad lv → Pad nv) := by
  refine ⟨?_, ?_, ?_⟩
  · intro k hk hs
    have h23 : lv 23 = 0 := hs.2.2 23 (by decide) (by omega)
    have hf : ∀ j < 24, sumFlags nv * (nv ((j + 1) % 24) - lv j) + (1 - sumFlags nv) = 0 := by
      intro j hj
      have := hn.flags j hj
      rw [h23, hs.sum] at this
      linear_combination this
    have hz : ∀ j < 24, j ≠ k → nv ((j + 1) % 24) = 0 ∧ sumFlags nv = 1 := by
      intro j hj hne
      have h1 := hf j hj
      rw [hs.2.2 j hj hne] at h1
      rcases bit_cases (hr.flags ((j + 1) % 24) (by omega)) with h | h
      · rw [h] at h1; exact ⟨h, by linear_combination -h1⟩
      · rw [h] at h1; exact absurd (show (1 : F) = 0 by linear_combination h1) one_ne_zero
    have hS : sumFlags nv = 1 := (hz 23 (by decide) (by omega)).2
    refine ⟨by omega, ?_, ?_⟩
    · have h1 := hf k (by omega)
      rw [hS, hs.2.1, Nat.mod_eq_of_lt (by omega)] at h1
      linear_combination h1
    · intro j hj hne
      rcases Nat.eq_zero_or_pos j with rfl | h0
      · have := (hz 23 (by decide) (by omega)).1
        simpa using this
      · have := (hz (j - 1) (by omega) (by omega)).1
        rwa [show (j - 1 + 1) % 24 = j by omega] at this
  · intro hs
    by_cases h : sumFlags nv = 0
    · exact .inr (pad_of_sum hr.flags h)
    · left
      have hf : ∀ j < 24, nv ((j + 1) % 24) = lv j := by
        intro j hj
        have := hn.flags j hj
        rw [hs.2.1, sub_self, mul_zero, add_zero] at this
        exact sub_eq_zero.1 ((mul_eq_zero.1 this).resolve_left h)
      refine ⟨by decide, ?_, ?_⟩
      · have := hf 23 (by decide)
        rw [hs.2.1] at this
        exact this
      · intro j hj hne
        have := hf (j - 1) (by omega)
        rw [show (j - 1 + 1) % 24 = j by omega, hs.2.2 (j - 1) (by omega) (by omega)] at this
        exact this
  · intro hp
    have := hn.pad
    rw [hp.sum] at this
    exact pad_of_sum hr.flags (by linear_combination -this)

theorem row_flags {n : ℕ} {T : ℕ → Row F} (h : Satisfies evalKeccak n T) {i : ℕ} (hi : i < n) : (∃ k, StepIs (T i) k) ∨ Pad (T i) := by
  have hs := sat_iff.1 h
  induction i with
  | zero =>
    rcases first_flags (hs 0 hi).1 ((hs 0 hi).2.1 rfl) with h | h
    · exact .inl ⟨0, h⟩
    · exact .inr h
  | succ i ih =>
    have hn := (hs i (by omega)).2.2.1 (by omega)
    rw [Nat.mod_eq_of_lt hi] at hn
    obtain ⟨h1, h2, h3⟩ := next_flags (hs (i + 1) hi).1 hn
    rcases ih (by omega) with ⟨k, hk⟩ | hp
    · by_cases h23 : k = 23
      · subst h23
        rcases h2 hk with h | h
        · exact .inl ⟨0, h⟩
        · exact .inr h
      · exact .inl ⟨k + 1, h1 k (by have := hk.1; omega) hk⟩
    · exact .inr (h3 hp)

theorem StepIs.unique {lv : Row F} {k k' : ℕ} (h : StepIs lv k) (h' : StepIs lv k') : k = k' := by
  by_contra hne
  have := h.2.2 k' h'.1 (Ne.symm hne)
  rw [h'.2.1] at this
  exact one_ne_zero this

/-- Before a round comes the previous one. -/
theorem prev_flags {n : ℕ} {T : ℕ → Row F} (h : Satisfies evalKeccak n T) {i k : ℕ} (hi : i < n) (hs : StepIs (T i) (k + 1)) :
    ∃ i', i = i' + 1 ∧ StepIs (T i') k := by
  have hsat := sat_iff.1 h
  rcases i with _ | i
  · rcases first_flags (hsat 0 hi).1 ((hsat 0 hi).2.1 rfl) with h | h
    · exact absurd (hs.unique h) (by omega)
    · exact absurd (h _ hs.1) (by rw [hs.2.1]; exact one_ne_zero)
  · refine ⟨i, rfl, ?_⟩
    have hn := (hsat i (by omega)).2.2.1 (by omega)
    rw [Nat.mod_eq_of_lt hi] at hn
    obtain ⟨h1, h2, h3⟩ := next_flags (hsat (i + 1) hi).1 hn
    have hnp : ¬ Pad (T (i + 1)) := fun hp => absurd (hp _ hs.1) (by rw [hs.2.1]; exact one_ne_zero)
    rcases row_flags h (show i < n by omega) with ⟨m, hm⟩ | hp
    · by_cases h23 : m = 23
      · subst h23
        rcases h2 hm with h | h
        · exact absurd (hs.unique h) (by omega)
        · exact absurd h hnp
      · have := hs.unique (h1 m (by have := hm.1; omega) hm)
        rwa [show k = m by omega]
    · exact absurd (h3 hp) hnp

/-- The row of round `k` is preceded by the rows of the rounds before it. -/
theorem back_flags {n : ℕ} {T : ℕ → Row F} (h : Satisfies evalKeccak n T) {i k : ℕ} (hi : i < n) (hs : StepIs (T i) k) :
    k ≤ i ∧ ∀ j ≤ k, StepIs (T (i - k + j)) j := by
  induction k generalizing i with
  | zero => exact ⟨Nat.zero_le _, fun j hj => by rw [Nat.le_zero.1 hj]; exact hs⟩
  | succ k ih =>
    obtain ⟨i', rfl, hs'⟩ := prev_flags h hi hs
    obtain ⟨hk, hj⟩ := ih (by omega) hs'
    refine ⟨by omega, fun j hj' => ?_⟩
    rw [show i' + 1 - (k + 1) = i' - k by omega]
    rcases Nat.lt_or_eq_of_le hj' with h' | rfl
    · exact hj j (by omega)
    · rw [show i' - k + (k + 1) = i' + 1 by omega]; exact hs

/-! ### Sums of bits -/

/-- A bit as an element of the field. -/
def b2f (b : Bool) : F := if b then 1 else 0

def bit (v : F) : Bool := decide (v = 1)

theorem b2f_bit {v : F} (h : v = 0 ∨ v = 1) : b2f (bit v) = v := by
  rcases h with rfl | rfl
  · rw [bit, decide_eq_false zero_ne_one]; rfl
  · rw [bit, decide_eq_true rfl]; rfl

theorem xorGen_b2f (a b : Bool) : xorGen (b2f a) (b2f b) = b2f (a ^^ b) := by
  cases a <;> cases b <;> simp [xorGen, b2f] <;> ring

theorem xor3Gen_b2f (a b c : Bool) : xor3Gen (b2f a) (b2f b) (b2f c) = b2f (a ^^ (b ^^ c)) := by
  rw [xor3Gen, xorGen_b2f, xorGen_b2f]

theorem andnGen_b2f (a b : Bool) : andnGen (b2f a) (b2f b) = b2f (!a && b) := by
  cases a <;> cases b <;> simp [andnGen, b2f]

theorem foldr_range {R : Type} [CommRing R] (f : ℕ → R) (n : ℕ) (a : R) :
    (List.range n).foldr (fun z acc => 2 * acc + f z) a = ∑ z ∈ range n, 2 ^ z * f z + 2 ^ n * a := by
  induction n generalizing a with
  | zero => simp
  | succ n ih => rw [List.range_succ, List.foldr_append, List.foldr_cons, List.foldr_nil, ih, sum_range_succ, pow_succ]; ring

theorem fold32_eq (f : ℕ → F) (s : ℕ) : fold32 f s = ∑ z ∈ range 32, 2 ^ z * f (s + z) := by
  rw [fold32, foldr_range (fun z => f (s + z))]; ring

theorem fold32_congr {f g : ℕ → F} {s : ℕ} (h : ∀ z < 32, f (s + z) = g (s + z)) : fold32 f s = fold32 g s := by
  rw [fold32_eq, fold32_eq]
  exact sum_congr rfl (fun z hz => by rw [h z (mem_range.1 hz)])

theorem laneOf_cast (f : ℕ → Bool) (n : ℕ) : ((Spec.laneOf f n : ℕ) : F) = ∑ z ∈ range n, 2 ^ z * b2f (f z) := by
  induction n with
  | zero => simp [Spec.laneOf]
  | succ n ih =>
    rw [Spec.laneOf, Nat.cast_add, ih, sum_range_succ]
    cases f n <;> simp [b2f]

theorem fold32_b2f (f : ℕ → Bool) (s : ℕ) : fold32 (fun z => b2f (f z)) s = ((Spec.laneOf (fun z => f (s + z)) 32 : ℕ) : F) := by
  rw [fold32_eq, laneOf_cast]

theorem cast_inj {a b : ℕ} (ha : a < 2 ^ 32) (hb : b < 2 ^ 32) (h : (a : F) = (b : F)) : a = b := by
  have e := (ZMod.natCast_eq_natCast_iff' a b P).1 h
  have hp : 2 ^ 32 < P := by decide
  rwa [Nat.mod_eq_of_lt (by omega), Nat.mod_eq_of_lt (by omega)] at e

theorem laneOf_inj {f g : ℕ → Bool} (h : ((Spec.laneOf f 32 : ℕ) : F) = ((Spec.laneOf g 32 : ℕ) : F)) : ∀ z < 32, f z = g z := by
  have := cast_inj (Spec.laneOf_lt f 32) (Spec.laneOf_lt g 32) h
  intro z hz
  rw [← Spec.testBit_laneOf f 32 z hz, ← Spec.testBit_laneOf g 32 z hz, this]

/-! ### One round -/

/-- The columns that are meant to hold bits hold bits. -/
structure BitsOk (lv : Row F) : Prop where
  c : ∀ x < 5, ∀ z < 64, lv (regC x z) = 0 ∨ lv (regC x z) = 1
  aPrime : ∀ x < 5, ∀ y < 5, ∀ z < 64, lv (regA' x y z) = 0 ∨ lv (regA' x y z) = 1
  bits : ∀ i < 64, lv (regBit i) = 0 ∨ lv (regBit i) = 1

/-- The state whose limbs are in the columns A. -/
def stateOf (lv : Row F) : Spec.State := fun x y z => bit (lv (regA' x y z)) ^^ (bit (lv (regC x z)) ^^ bit (lv (regC' x z)))

/-- The thirty-two bits from `32 h` of a lane, as a field element. -/
def limb (A : Spec.State) (x y h : ℕ) : F := ((Spec.laneOf (fun z => A x y (32 * h + z)) 32 : ℕ) : F)

theorem xor5_of_diff (a b c d e p : Bool) (h : (b2f a + (b2f b + (b2f c + (b2f d + (b2f e + 0)))) - b2f p) *
    (b2f a + (b2f b + (b2f c + (b2f d + (b2f e + 0)))) - b2f p - 2) * (b2f a + (b2f b + (b2f c + (b2f d + (b2f e + 0)))) - b2f p - 4) = 0) :
    (a ^^ b ^^ c ^^ d ^^ e) = p := by
  revert h
  revert a b c d e p
  decide +kernel

theorem rot_eq : ∀ a < 5, ∀ b < 5, rot a b = Spec.rhoOffset a b % 64 := by decide +kernel

theorem rcValueBit_eq : ∀ r < 24, ∀ z < 64, rcValueBit r z = (Spec.rcBit r z).toNat := by decide +kernel

variable {lv : Row F}

theorem c_prime_bit (hr : RowOk lv) (hb : BitsOk lv) {x z : ℕ} (hx : x < 5) (hz : z < 64) : lv (regC' x z) = b2f (bit (lv (regC' x z))) ∧
    bit (lv (regC' x z)) = (bit (lv (regC x z)) ^^ (bit (lv (regC ((x + 4) % 5) z)) ^^ bit (lv (regC ((x + 1) % 5) ((z + 63) % 64))))) := by
  have h := sub_eq_zero.1 (hr.cPrime x hx z hz)
  rw [← b2f_bit (hb.c x hx z hz), ← b2f_bit (hb.c _ (show (x + 4) % 5 < 5 by omega) z hz),
    ← b2f_bit (hb.c _ (show (x + 1) % 5 < 5 by omega) _ (show (z + 63) % 64 < 64 by omega)), xor3Gen_b2f] at h
  have hbb : ∀ b, bit (b2f b) = b := by intro b; cases b <;> simp [bit, b2f]
  rw [h, hbb]
  exact ⟨rfl, rfl⟩

theorem inBit_eq (hr : RowOk lv) (hb : BitsOk lv) {x y z : ℕ} (hx : x < 5) (hy : y < 5) (hz : z < 64) : inBit lv x y z = b2f (stateOf lv x y z) := by
  rw [inBit, ← b2f_bit (hb.aPrime x hx y hy z hz), ← b2f_bit (hb.c x hx z hz), (c_prime_bit hr hb hx hz).1, xor3Gen_b2f, stateOf]

theorem input_limb (hr : RowOk lv) (hb : BitsOk lv) {x y h : ℕ} (hx : x < 5) (hy : y < 5) (hh : h < 2) : lv (regA x y + h) = limb (stateOf lv) x y h := by
  have key : fold32 (inBit lv x y) (32 * h) = limb (stateOf lv) x y h := by
    rw [limb, ← fold32_b2f]
    exact fold32_congr (fun z hz => inBit_eq hr hb hx hy (by omega))
  have := hr.input x hx y hy
  rcases h with _ | _ | h
  · rw [← key]; exact (sub_eq_zero.1 this.1).symm
  · rw [← key]; exact (sub_eq_zero.1 this.2).symm
  · omega

theorem a_prime_parity (hr : RowOk lv) (hb : BitsOk lv) {x z : ℕ} (hx : x < 5) (hz : z < 64) :
    (bit (lv (regA' x 0 z)) ^^ bit (lv (regA' x 1 z)) ^^ bit (lv (regA' x 2 z)) ^^ bit (lv (regA' x 3 z)) ^^ bit (lv (regA' x 4 z))) = bit (lv (regC' x z)) := by
  have h := hr.diff x hx z hz
  have e : (List.range 5).map (fun i => lv (regA' x i z)) = [lv (regA' x 0 z), lv (regA' x 1 z), lv (regA' x 2 z), lv (regA' x 3 z), lv (regA' x 4 z)] := rfl
  rw [e] at h
  simp only [List.sum_cons, List.sum_nil] at h
  rw [← b2f_bit (hb.aPrime x hx 0 (by decide) z hz), ← b2f_bit (hb.aPrime x hx 1 (by decide) z hz), ← b2f_bit (hb.aPrime x hx 2 (by decide) z hz),
    ← b2f_bit (hb.aPrime x hx 3 (by decide) z hz), ← b2f_bit (hb.aPrime x hx 4 (by decide) z hz), (c_prime_bit hr hb hx hz).1] at h
  exact xor5_of_diff _ _ _ _ _ _ h

theorem parity_eq (hr : RowOk lv) (hb : BitsOk lv) {x z : ℕ} (hx : x < 5) (hz : z < 64) : Spec.parity (stateOf lv) x z = bit (lv (regC x z)) := by
  have h := a_prime_parity hr hb hx hz
  unfold Spec.parity stateOf
  revert h
  generalize bit (lv (regA' x 0 z)) = a0
  generalize bit (lv (regA' x 1 z)) = a1
  generalize bit (lv (regA' x 2 z)) = a2
  generalize bit (lv (regA' x 3 z)) = a3
  generalize bit (lv (regA' x 4 z)) = a4
  generalize bit (lv (regC x z)) = c
  generalize bit (lv (regC' x z)) = c'
  revert a0 a1 a2 a3 a4 c c'
  decide

theorem theta_eq (hr : RowOk lv) (hb : BitsOk lv) {x y z : ℕ} (hx : x < 5) (hz : z < 64) :
    Spec.theta (stateOf lv) x y z = bit (lv (regA' x y z)) := by
  rw [Spec.theta, parity_eq hr hb (by omega) hz, parity_eq hr hb (by omega) (by omega), stateOf, (c_prime_bit hr hb hx hz).2]
  generalize bit (lv (regA' x y z)) = a
  generalize bit (lv (regC x z)) = c
  generalize bit (lv (regC ((x + 4) % 5) z)) = c1
  generalize bit (lv (regC ((x + 1) % 5) ((z + 63) % 64))) = c2
  revert a c c1 c2
  decide

theorem regB_eq (hr : RowOk lv) (hb : BitsOk lv) {x y z : ℕ} (hx : x < 5) :
    lv (regB x y z) = b2f (Spec.pi (Spec.rho (Spec.theta (stateOf lv))) x y z) := by
  have hr5 : (x + 3 * y) % 5 < 5 := by omega
  rw [Spec.pi, Spec.rho, regB, rot_eq _ hr5 _ hx, theta_eq hr hb hr5 (by omega), b2f_bit (hb.aPrime _ hr5 _ hx _ (by omega))]

theorem chiBit_eq (hr : RowOk lv) (hb : BitsOk lv) {x y z : ℕ} (hx : x < 5) :
    chiBit lv x y z = b2f (Spec.chi (Spec.pi (Spec.rho (Spec.theta (stateOf lv)))) x y z) := by
  rw [chiBit, regB_eq hr hb hx, regB_eq hr hb (show (x + 1) % 5 < 5 by omega), regB_eq hr hb (show (x + 2) % 5 < 5 by omega), andnGen_b2f,
    xorGen_b2f, Spec.chi]

theorem chi_limb (hr : RowOk lv) (hb : BitsOk lv) {x y h : ℕ} (hx : x < 5) (hy : y < 5) (hh : h < 2) :
    lv (regA'' x y + h) = limb (Spec.chi (Spec.pi (Spec.rho (Spec.theta (stateOf lv))))) x y h := by
  have key : fold32 (chiBit lv x y) (32 * h) = limb (Spec.chi (Spec.pi (Spec.rho (Spec.theta (stateOf lv))))) x y h := by
    rw [limb, ← fold32_b2f]
    exact fold32_congr (fun z hz => chiBit_eq hr hb hx)
  have := hr.chi x hx y hy
  rcases h with _ | _ | h
  · rw [← key]; exact (sub_eq_zero.1 this.1).symm
  · rw [← key]; exact (sub_eq_zero.1 this.2).symm
  · omega

theorem bits_eq (hr : RowOk lv) (hb : BitsOk lv) {z : ℕ} (hz : z < 64) :
    lv (regBit z) = b2f (Spec.chi (Spec.pi (Spec.rho (Spec.theta (stateOf lv)))) 0 0 z) := by
  have key : ∀ h < 2, fold32 (fun i => lv (regBit i)) (32 * h) = lv (regA'' 0 0 + h) := by
    intro h hh
    rcases h with _ | _ | h
    · exact sub_eq_zero.1 hr.bits.1
    · exact sub_eq_zero.1 hr.bits.2
    · omega
  have hk := key (z / 32) (by omega)
  rw [chi_limb hr hb (by decide) (by decide) (by omega), limb,
    fold32_congr (g := fun i => b2f (bit (lv (regBit i)))) (fun i hi => (b2f_bit (hb.bits _ (by omega))).symm), fold32_b2f] at hk
  have := laneOf_inj hk (z % 32) (by omega)
  rw [show 32 * (z / 32) + z % 32 = z by omega] at this
  rw [← this, b2f_bit (hb.bits z hz)]

theorem rcBitSel_eq {k : ℕ} (hs : StepIs lv k) {z : ℕ} (hz : z < 64) : rcBitSel lv z = b2f (Spec.rcBit k z) := by
  have : rcBitSel lv z = ∑ r ∈ range 24, lv r * (rcValueBit r z : F) := by
    unfold rcBitSel
    rw [Finset.sum_range, ← List.sum_ofFn, List.ofFn_eq_map]
    simp [NUM_ROUNDS, List.range_succ, List.finRange_succ]
  rw [this, sum_eq_single_of_mem k (mem_range.2 hs.1) (fun j hj hne => by rw [hs.2.2 j (mem_range.1 hj) hne, zero_mul]), hs.2.1, one_mul,
    rcValueBit_eq k hs.1 z hz]
  cases Spec.rcBit k z <;> simp [b2f]

/-- The output columns of a row hold the result of the round. -/
theorem output_limb (hr : RowOk lv) (hb : BitsOk lv) {k : ℕ} (hs : StepIs lv k) {x y h : ℕ} (hx : x < 5) (hy : y < 5) (hh : h < 2) :
    lv (regA3 x y + h) = limb (Spec.round k (stateOf lv)) x y h := by
  by_cases h0 : x = 0 ∧ y = 0
  · obtain ⟨rfl, rfl⟩ := h0
    have key : fold32 (fun i => xorGen (lv (regBit i)) (rcBitSel lv i)) (32 * h) = limb (Spec.round k (stateOf lv)) 0 0 h := by
      rw [limb, ← fold32_b2f]
      refine fold32_congr (fun z hz => ?_)
      simp only [bits_eq hr hb (show 32 * h + z < 64 by omega), rcBitSel_eq hs (show 32 * h + z < 64 by omega), xorGen_b2f, Spec.round, Spec.iota, true_and,
        if_true]
    rcases h with _ | _ | h
    · rw [← key]; exact (sub_eq_zero.1 hr.iota.1).symm
    · rw [← key]; exact (sub_eq_zero.1 hr.iota.2).symm
    · omega
  · have e : regA3 x y = regA'' x y := by rw [regA3, if_neg h0]
    rw [e, chi_limb hr hb hx hy hh]
    unfold limb Spec.round Spec.iota
    simp only [h0, if_false]

/-! ### The permutation -/

theorem limb_congr {A B : Spec.State} (h : Spec.Same A B) {x y j : ℕ} (hx : x < 5) (hy : y < 5) (hj : j < 2) : limb A x y j = limb B x y j := by
  rw [limb, limb, laneOf_cast, laneOf_cast]
  exact sum_congr rfl (fun z hz => by rw [h x hx y hy _ (by have := mem_range.1 hz; omega)])

theorem same_of_limbs {A B : Spec.State} (h : ∀ x < 5, ∀ y < 5, ∀ j < 2, limb A x y j = limb B x y j) : Spec.Same A B := by
  intro x hx y hy z hz
  have := laneOf_inj (h x hx y hy (z / 32) (by omega)) (z % 32) (by omega)
  rwa [show 32 * (z / 32) + z % 32 = z by omega] at this

/-- The rows of a permutation hold the states of its rounds. -/
theorem rounds_state {n : ℕ} {T : ℕ → Row F} (h : Satisfies evalKeccak n T) {i : ℕ} (k : ℕ) (hk : k < 24) (hi : i + k < n)
    (hs : ∀ j ≤ k, StepIs (T (i + j)) j) (hb : ∀ j ≤ k, BitsOk (T (i + j))) :
    Spec.Same (stateOf (T (i + k))) (Spec.rounds k (stateOf (T i))) ∧ T (i + k) TIMESTAMP = T i TIMESTAMP := by
  have hsat := sat_iff.1 h
  induction k with
  | zero => exact ⟨fun x _ y _ z _ => rfl, rfl⟩
  | succ k ih =>
    obtain ⟨hA, ht⟩ := ih (by omega) (by omega) (fun j hj => hs j (by omega)) (fun j hj => hb j (by omega))
    obtain ⟨hr, -, hn, htime⟩ := hsat (i + k) (by omega)
    have hr' := (hsat (i + (k + 1)) hi).1
    have hn := hn (by omega)
    rw [Nat.mod_eq_of_lt (by omega)] at hn htime
    have hk' := hs k (by omega)
    have h23 : T (i + k) 23 = 0 := hk'.2.2 23 (by decide) (by omega)
    constructor
    · refine Spec.Same.trans ?_ (Spec.round_congr k hA)
      refine same_of_limbs (fun x hx y hy j hj => ?_)
      rw [← output_limb hr (hb k (by omega)) hk' hx hy hj, ← input_limb hr' (hb (k + 1) le_rfl) hx hy hj]
      have hl := hn.link x hx y hy
      rw [h23, sub_zero, one_mul, one_mul] at hl
      rcases j with _ | _ | j
      · exact (sub_eq_zero.1 hl.1).symm
      · exact (sub_eq_zero.1 hl.2).symm
      · omega
    · rw [hk'.sum, h23, sub_zero, one_mul, one_mul] at htime
      rw [← ht]
      exact sub_eq_zero.1 htime

/-- The fifty limbs of a state in the order of the Keccak specification. -/
def limbs (A : Spec.State) (k : ℕ) : F := limb A (k / 2 % 5) (k / 2 / 5) (k % 2)

theorem exports_output {n : ℕ} {T : ℕ → Row F} (h : Satisfies evalKeccak n T) (hb : ∀ i < n, BitsOk (T i)) {out : ℕ → F} {time : F}
    (ho : ExportsOutput n T out time) :
    ∃ A : Spec.State, ExportsInput n T (limbs A) time ∧ ∀ k < 50, out k = limbs (Spec.keccakF A) k := by
  obtain ⟨i, hi, h1, ht, hout⟩ := ho
  have hs : StepIs (T i) 23 := by
    rcases row_flags h hi with ⟨k, hk⟩ | hp
    · by_cases hne : k = 23
      · rwa [hne] at hk
      · have := hk.2.2 23 (by decide) (by omega)
        rw [show NUM_ROUNDS - 1 = 23 from rfl, this] at h1
        exact absurd h1 zero_ne_one
    · have := hp 23 (by decide)
      rw [show NUM_ROUNDS - 1 = 23 from rfl, this] at h1
      exact absurd h1 zero_ne_one
  obtain ⟨h23, hback⟩ := back_flags h hi hs
  have hsat := sat_iff.1 h
  obtain ⟨hA, htime⟩ := rounds_state h (i := i - 23) 23 (by decide) (by omega) hback (fun j hj => hb _ (by omega))
  rw [show i - 23 + 23 = i by omega] at hA htime
  refine ⟨stateOf (T (i - 23)), ⟨i - 23, by omega, (hback 0 (by decide)).2.1, by rw [← htime, ht], fun k hk => ?_⟩, fun k hk => ?_⟩
  · rw [regInputLimb, input_limb (hsat _ (by omega)).1 (hb _ (by omega)) (by omega) (by omega) (by omega)]
    rfl
  · rw [← hout k hk, regOutputLimb, output_limb (hsat _ hi).1 (hb _ hi) hs (by omega) (by omega) (by omega)]
    exact limb_congr (Spec.round_congr 23 hA) (by omega) (by omega) (by omega)

end Verif.Stark.Keccak
