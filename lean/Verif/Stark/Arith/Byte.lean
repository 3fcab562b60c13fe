import Verif.Stark.Arith.Modular

/-! BYTE. `evm_arithmetization/src/arithmetic/byte.rs`. -/

namespace Verif.Stark.Arith

open Finset

variable {R : Type} [CommRing R]

/-- `byte.rs:80-89`. -/
abbrev BYTE_IDX_DECOMP_HI : ℕ := 87
abbrev BYTE_LAST_LIMB_LO : ℕ := 88
abbrev BYTE_LAST_LIMB_HI : ℕ := 89
abbrev BYTE_IDX_IS_LARGE : ℕ := 90
abbrev BYTE_IDX_HI_LIMB_SUM_INV_0 : ℕ := 91
abbrev BYTE_IDX_HI_LIMB_SUM_INV_1 : ℕ := 92
abbrev BYTE_IDX_HI_LIMB_SUM_INV_2 : ℕ := 93
abbrev BYTE_IDX_HI_LIMB_SUM_INV_3 : ℕ := 94

/-- The multiplexer of the constraints: `bit * a + (1 - bit) * b`. `byte.rs:233, 239, 245, 250`. -/
def sel (bit a b : R) : R := bit * a + (1 - bit) * b

/-- `hi_limb_sum`. `byte.rs:267`. -/
def hiLimbSum (lv : Row R) : R := lv BYTE_IDX_DECOMP_HI + ((List.range (nLimbs - 1)).map (fun i => reg lv INPUT_REGISTER_0 (i + 1))).sum

/-- `byte::eval_packed`. `byte.rs:201-295`. -/
def evalByte (lv : Row R) : List (Constr R) :=
  let isByte := lv IS_BYTE
  let idx := reg lv INPUT_REGISTER_0
  let val := reg lv INPUT_REGISTER_1
  let out := reg lv OUTPUT_REGISTER
  let dec := reg lv AUX_INPUT_REGISTER_0
  let tree := reg lv AUX_INPUT_REGISTER_1
  let idx0Lo5 := dec 0 * 1 + dec 1 * 2 + dec 2 * 4 + dec 3 * 8 + dec 4 * 16
  let limb := sel (dec 1) (tree 12) (tree 13)
  let lo := lv BYTE_LAST_LIMB_LO
  let hi := lv BYTE_LAST_LIMB_HI
  let isLarge := lv BYTE_IDX_IS_LARGE
  let inv := lv BYTE_IDX_HI_LIMB_SUM_INV_0 + lv BYTE_IDX_HI_LIMB_SUM_INV_1 * 65536 + lv BYTE_IDX_HI_LIMB_SUM_INV_2 * 4294967296 +
    lv BYTE_IDX_HI_LIMB_SUM_INV_3 * 281474976710656
  (List.range 5).map (fun i => ⟨.always, isByte * (dec i * dec i - dec i)⟩) ++
  [⟨.always, isByte * (idx 0 - (idx0Lo5 + dec 5 * 32))⟩] ++
  (List.range 8).map (fun i => ⟨.always, isByte * (tree i - sel (dec 4) (val i) (val (i + 8)))⟩) ++
  (List.range 4).map (fun i => ⟨.always, isByte * (tree (i + 8) - sel (dec 3) (tree i) (tree (i + 4)))⟩) ++
  (List.range 2).map (fun i => ⟨.always, isByte * (tree (i + 12) - sel (dec 2) (tree (i + 8)) (tree (i + 10)))⟩) ++
  [⟨.always, isByte * (tree 14 - limb)⟩,
   ⟨.always, isByte * (lo + 256 * (256 * hi - limb))⟩,
   ⟨.always, isByte * (256 * tree 15 - (dec 0 * lo + (1 - dec 0) * 256 * hi))⟩,
   ⟨.always, isByte * (isLarge * isLarge - isLarge)⟩,
   ⟨.always, isByte * hiLimbSum lv * (isLarge - 1)⟩,
   ⟨.always, isByte * (hiLimbSum lv * inv - isLarge)⟩,
   ⟨.always, isByte * (out 0 - (1 - isLarge) * tree 15)⟩] ++
  (List.range (nLimbs - 1)).map (fun i => ⟨.always, isByte * out (i + 1)⟩)

/-! ### Soundness -/

/-- The digits of a number written in a base. -/
theorem digit_sum {B : ℕ} (hB : 0 < B) : ∀ (k n : ℕ) (a : ℕ → ℕ), (∀ i < n, a i < B) → k < n →
    (∑ i ∈ range n, a i * B ^ i) / B ^ k % B = a k := by
  intro k
  induction k with
  | zero =>
    intro n a ha hk
    obtain ⟨m, rfl⟩ : ∃ m, n = m + 1 := ⟨n - 1, by omega⟩
    rw [sum_range_succ', pow_zero, Nat.div_one, mul_one]
    have : ∑ i ∈ range m, a (i + 1) * B ^ (i + 1) = B * ∑ i ∈ range m, a (i + 1) * B ^ i := by
      rw [mul_sum]; exact sum_congr rfl (fun i _ => by ring)
    rw [this, Nat.mul_add_mod, Nat.mod_eq_of_lt (ha 0 (by omega))]
  | succ k ih =>
    intro n a ha hk
    obtain ⟨m, rfl⟩ : ∃ m, n = m + 1 := ⟨n - 1, by omega⟩
    rw [sum_range_succ', pow_zero, mul_one]
    have : ∑ i ∈ range m, a (i + 1) * B ^ (i + 1) = B * ∑ i ∈ range m, a (i + 1) * B ^ i := by
      rw [mul_sum]; exact sum_congr rfl (fun i _ => by ring)
    rw [this, pow_succ', ← Nat.div_div_eq_div_mul, Nat.mul_add_div hB, Nat.div_eq_of_lt (ha 0 (by omega)), add_zero]
    exact ih m (fun i => a (i + 1)) (fun i hi => ha (i + 1) (by omega)) (by omega)

theorem sel_one (a b : F) : sel (1 : F) a b = a := by unfold sel; ring
theorem sel_zero (a b : F) : sel (0 : F) a b = b := by unfold sel; ring

/-- The four bits above the lowest select limb `15 - 8 b4 - 4 b3 - 2 b2 - b1`. -/
theorem tree_sound {val tree : Limbs F} {b1 b2 b3 b4 : ℕ} (h1 : b1 = 0 ∨ b1 = 1) (h2 : b2 = 0 ∨ b2 = 1) (h3 : b3 = 0 ∨ b3 = 1)
    (h4 : b4 = 0 ∨ b4 = 1) (t4 : ∀ i < 8, tree i = sel (b4 : F) (val i) (val (i + 8)))
    (t3 : ∀ i < 4, tree (i + 8) = sel (b3 : F) (tree i) (tree (i + 4)))
    (t2 : ∀ i < 2, tree (i + 12) = sel (b2 : F) (tree (i + 8)) (tree (i + 10))) :
    sel (b1 : F) (tree 12) (tree 13) = val (15 - 8 * b4 - 4 * b3 - 2 * b2 - b1) := by
  have h : sel (b1 : F) (tree 12) (tree 13) = tree (13 - b1) := by
    rcases h1 with rfl | rfl
    · rw [Nat.cast_zero, sel_zero]
    · rw [Nat.cast_one, sel_one]
  rw [h]
  have h12 : ∀ j < 2, tree (j + 12) = tree (j + 10 - 2 * b2) := by
    intro j hj
    rw [t2 j hj]
    rcases h2 with rfl | rfl
    · rw [Nat.cast_zero, sel_zero]; rfl
    · rw [Nat.cast_one, sel_one]; rfl
  have h8 : ∀ j < 4, tree (j + 8) = tree (j + 4 - 4 * b3) := by
    intro j hj
    rw [t3 j hj]
    rcases h3 with rfl | rfl
    · rw [Nat.cast_zero, sel_zero]; rfl
    · rw [Nat.cast_one, sel_one]; rfl
  have h0 : ∀ j < 8, tree j = val (j + 8 - 8 * b4) := by
    intro j hj
    rw [t4 j hj]
    rcases h4 with rfl | rfl
    · rw [Nat.cast_zero, sel_zero]; rfl
    · rw [Nat.cast_one, sel_one]; rfl
  have e1 : 13 - b1 = (1 - b1) + 12 := by omega
  rw [e1, h12 _ (by omega)]
  have e2 : 1 - b1 + 10 - 2 * b2 = (3 - b1 - 2 * b2) + 8 := by omega
  rw [e2, h8 _ (by omega), h0 _ (by omega)]
  congr 1; omega

/-- A bit of the field as a natural number. -/
theorem nat_bit {x : F} (h : x * x - x = 0) : ∃ b : ℕ, (b = 0 ∨ b = 1) ∧ x = (b : F) ∧ x.val = b := by
  have : x * (x - 1) = 0 := by linear_combination h
  rcases mul_eq_zero.1 this with h | h
  · exact ⟨0, .inl rfl, by rw [h]; simp, by rw [h]; simp⟩
  · have h := sub_eq_zero.1 h
    refine ⟨1, .inr rfl, by rw [h]; simp, by rw [h]; decide +kernel⟩

/-- The `i`-th byte of `v`, counted from the most significant of thirty-two; zero beyond. (Specification: EVM `BYTE`.) -/
def byteSpec (i v : ℕ) : ℕ := if i < 32 then v / 256 ^ (31 - i) % 256 else 0

theorem lift_nat {a b : ℕ} (h : (a : F) = (b : F)) (ha : a < P) (hb : b < P) : a = b := by
  have := congrArg ZMod.val h
  rwa [ZMod.val_natCast, ZMod.val_natCast, Nat.mod_eq_of_lt ha, Nat.mod_eq_of_lt hb] at this

theorem val_cast (x : F) : ((x.val : ℕ) : F) = x := ZMod.natCast_zmod_val x

/-- The last step: the byte of the selected limb. -/
theorem last_byte {b l lo hi t : ℕ} (hb : b = 0 ∨ b = 1) (hl : l < 65536) (hlo : lo < 65536) (hhi : hi < 65536) (ht : t < 65536)
    (h1 : (lo : F) + 256 * (256 * hi - l) = 0) (h2 : 256 * (t : F) - ((b : F) * lo + (1 - b) * 256 * hi) = 0) :
    t = l / 256 ^ (1 - b) % 256 := by
  have e1 : lo + 65536 * hi = 256 * l := by
    refine lift_nat (by push_cast; linear_combination h1) ?_ ?_ <;> unfold P <;> omega
  rcases hb with rfl | rfl
  · have e2 : 256 * t = 256 * hi := by
      refine lift_nat (by push_cast at h2 ⊢; linear_combination h2) ?_ ?_ <;> unfold P <;> omega
    rw [show 1 - 0 = 1 from rfl, pow_one]; omega
  · have e2 : 256 * t = lo := by
      refine lift_nat (by push_cast at h2 ⊢; linear_combination h2) ?_ ?_ <;> unfold P <;> omega
    rw [show 1 - 1 = 0 from rfl, pow_zero, Nat.div_one]; omega

theorem mod_digit {x b : ℕ} (hb : b = 0 ∨ b = 1) : x % base / 256 ^ (1 - b) % 256 = x / 256 ^ (1 - b) % 256 := by
  simp only [base]
  rcases hb with rfl | rfl
  · rw [show 1 - 0 = 1 from rfl, pow_one]; omega
  · rw [show 1 - 1 = 0 from rfl, pow_zero]; omega

theorem byte_of_limb (v : ℕ) {k b l : ℕ} (h : 2 * k + (1 - b) = 31 - l) : v / base ^ k / 256 ^ (1 - b) % 256 = v / 256 ^ (31 - l) % 256 := by
  rw [Nat.div_div_eq_div_mul, show base = 256 ^ 2 by decide, ← pow_mul, ← pow_add, h]

theorem num_eq_sum (lv : Row F) (s : ℕ) : num lv s = (lv s).val + ∑ i ∈ range 15, (lv (s + (i + 1))).val * base ^ (i + 1) := by
  unfold num; rw [show nLimbs = 15 + 1 from rfl, sum_range_succ']; simp [add_comm]

theorem num_single {lv : Row F} {s : ℕ} (h : ∀ i < 15, lv (s + (i + 1)) = 0) : num lv s = (lv s).val := by
  rw [num_eq_sum, sum_eq_zero (fun i hi => by rw [h i (mem_range.1 hi)]; simp), add_zero]

/-- Whether the index is at least thirty-two. -/
theorem large_iff {lv : Row F} {s lo5 h : ℕ} (hlo : lo5 < 32) (hx : (lv s).val = lo5 + 32 * h) (hb : ∀ i < 15, (lv (s + (i + 1))).val < 65536)
    (hh : h < 65536) :
    ((h : F) + ∑ i ∈ range 15, lv (s + (i + 1)) = 0 ↔ num lv s < 32) ∧ (num lv s < 32 → num lv s = lo5) := by
  have hsum : (h : F) + ∑ i ∈ range 15, lv (s + (i + 1)) = ((h + ∑ i ∈ range 15, (lv (s + (i + 1))).val : ℕ) : F) := by
    push_cast; congr 1; exact sum_congr rfl (fun i _ => (val_cast _).symm)
  have hle : ∑ i ∈ range 15, (lv (s + (i + 1))).val ≤ 15 * 65536 := by
    refine (sum_le_card_nsmul _ _ 65536 (fun i hi => (hb i (mem_range.1 hi)).le)).trans (by simp)
  have hz : (h : F) + ∑ i ∈ range 15, lv (s + (i + 1)) = 0 ↔ h + ∑ i ∈ range 15, (lv (s + (i + 1))).val = 0 := by
    rw [hsum]
    constructor
    · intro e; exact lift_nat (by rw [e]; simp) (by unfold P; omega) (by unfold P; omega)
    · intro e; rw [e]; simp
  have hge : ∑ i ∈ range 15, (lv (s + (i + 1))).val * 32 ≤ ∑ i ∈ range 15, (lv (s + (i + 1))).val * base ^ (i + 1) := by
    refine sum_le_sum (fun i _ => Nat.mul_le_mul_left _ ?_)
    calc 32 ≤ base ^ 1 := by decide
      _ ≤ base ^ (i + 1) := Nat.pow_le_pow_right (by decide) (by omega)
  rw [← sum_mul] at hge
  have hn := num_eq_sum lv s
  rw [hz]
  constructor
  · constructor
    · intro h0
      have h00 : ∑ i ∈ range 15, (lv (s + (i + 1))).val = 0 := by omega
      have : ∀ i < 15, lv (s + (i + 1)) = 0 := fun i hi =>
        (ZMod.val_eq_zero _).1 ((sum_eq_zero_iff.1 h00) i (mem_range.2 hi))
      rw [num_single this, hx]; omega
    · intro h32; omega
  · intro h32
    have h00 : ∑ i ∈ range 15, (lv (s + (i + 1))).val = 0 := by omega
    have : ∀ i < 15, lv (s + (i + 1)) = 0 := fun i hi => (ZMod.val_eq_zero _).1 ((sum_eq_zero_iff.1 h00) i (mem_range.2 hi))
    rw [num_single this, hx] at h32 ⊢; omega

theorem byte_row {lv : Row F} (hr : Ranged lv) (hf : lv IS_BYTE = 1) (h : Holds (evalByte lv)) :
    num lv OUTPUT_REGISTER = byteSpec (num lv INPUT_REGISTER_0) (num lv INPUT_REGISTER_1) := by
  unfold evalByte at h
  simp only [hf, one_mul] at h
  simp only [Holds.append, Holds.map (.inl rfl)] at h
  obtain ⟨⟨⟨⟨⟨⟨hbits, hidx⟩, t4⟩, t3⟩, t2⟩, hrest⟩, hout⟩ := h
  have hidx := hidx _ (List.mem_singleton_self _) (.inl rfl)
  have r1 := hrest _ (List.mem_of_getElem? (i := 1) rfl) (.inl rfl)
  have r2 := hrest _ (List.mem_of_getElem? (i := 2) rfl) (.inl rfl)
  have r3 := hrest _ (List.mem_of_getElem? (i := 3) rfl) (.inl rfl)
  have r4 := hrest _ (List.mem_of_getElem? (i := 4) rfl) (.inl rfl)
  have r5 := hrest _ (List.mem_of_getElem? (i := 5) rfl) (.inl rfl)
  have r6 := hrest _ (List.mem_of_getElem? (i := 6) rfl) (.inl rfl)
  clear hrest
  simp only at hidx r1 r2 r3 r4 r5 r6
  obtain ⟨b0, B0, d0, -⟩ := nat_bit (hbits 0 (by decide))
  obtain ⟨b1, B1, d1, -⟩ := nat_bit (hbits 1 (by decide))
  obtain ⟨b2, B2, d2, -⟩ := nat_bit (hbits 2 (by decide))
  obtain ⟨b3, B3, d3, -⟩ := nat_bit (hbits 3 (by decide))
  obtain ⟨b4, B4, d4, -⟩ := nat_bit (hbits 4 (by decide))
  obtain ⟨g, G, dg, -⟩ := nat_bit r3
  rw [d4] at t4
  rw [d3] at t3
  rw [d2] at t2
  have hsel := tree_sound B1 B2 B3 B4 (fun i hi => sub_eq_zero.1 (t4 i hi)) (fun i hi => sub_eq_zero.1 (t3 i hi))
    (fun i hi => sub_eq_zero.1 (t2 i hi))
  rw [d1, hsel] at r1
  rw [d0] at r2
  have rng : ∀ c, 18 ≤ c → c < 114 → (lv c).val < 65536 := fun c h1 h2 => hr c h1 h2
  obtain ⟨k, hk⟩ : ∃ k, k = 15 - 8 * b4 - 4 * b3 - 2 * b2 - b1 := ⟨_, rfl⟩
  rw [← hk] at r1
  have hk15 : k ≤ 15 := by omega
  have hlb : (lv 113).val = (lv (INPUT_REGISTER_1 + k)).val / 256 ^ (1 - b0) % 256 := by
    refine last_byte (lo := (lv BYTE_LAST_LIMB_LO).val) (hi := (lv BYTE_LAST_LIMB_HI).val) B0 (rng _ ?_ ?_) (rng _ (by decide) (by decide))
      (rng _ (by decide) (by decide)) (rng _ (by decide) (by decide)) ?_ ?_
    · simp only [INPUT_REGISTER_1]; omega
    · simp only [INPUT_REGISTER_1]; omega
    · rw [val_cast, val_cast, val_cast]; exact r1
    · rw [val_cast, val_cast, val_cast]; exact r2
  have h5 : (lv INPUT_REGISTER_0).val = (b0 + 2 * b1 + 4 * b2 + 8 * b3 + 16 * b4) + 32 * (lv BYTE_IDX_DECOMP_HI).val := by
    have x := rng INPUT_REGISTER_0 (by decide) (by decide)
    have y := rng BYTE_IDX_DECOMP_HI (by decide) (by decide)
    refine lift_nat ?_ (by unfold P; omega) (by unfold P; omega)
    rw [d0, d1, d2, d3, d4] at hidx
    push_cast
    rw [val_cast, val_cast]
    have e0 : reg lv INPUT_REGISTER_0 0 = lv INPUT_REGISTER_0 := rfl
    have e5 : reg lv AUX_INPUT_REGISTER_0 5 = lv BYTE_IDX_DECOMP_HI := rfl
    rw [e0, e5] at hidx
    linear_combination hidx
  have hlarge := large_iff (lv := lv) (s := INPUT_REGISTER_0) (h := (lv BYTE_IDX_DECOMP_HI).val) (by omega) h5
    (fun i hi => rng _ (by simp only [INPUT_REGISTER_0]; omega) (by simp only [INPUT_REGISTER_0]; omega)) (rng _ (by decide) (by decide))
  have hs : hiLimbSum lv = ((lv BYTE_IDX_DECOMP_HI).val : F) + ∑ i ∈ range 15, lv (INPUT_REGISTER_0 + (i + 1)) := by
    unfold hiLimbSum; rw [sum_range_map, val_cast]; rfl
  rw [← hs] at hlarge
  have ho : num lv OUTPUT_REGISTER = (lv OUTPUT_REGISTER).val := num_single (fun i hi => hout i hi)
  have h6 : lv OUTPUT_REGISTER = (1 - (g : F)) * lv 113 := by rw [← dg]; exact sub_eq_zero.1 r6
  rw [ho, h6]
  unfold byteSpec
  rcases G with rfl | rfl
  · have : hiLimbSum lv = 0 := by
      rw [dg] at r4; push_cast at r4; linear_combination -r4
    have h32 := hlarge.1.1 this
    rw [if_pos h32, hlarge.2 h32, Nat.cast_zero, sub_zero, one_mul, hlb]
    have hd := digit_sum (B := base) (by decide) k nLimbs (fun i => (lv (INPUT_REGISTER_1 + i)).val)
      (fun i hi => rng _ (by simp only [INPUT_REGISTER_1, nLimbs] at *; omega) (by simp only [INPUT_REGISTER_1, nLimbs] at *; omega))
      (by simp only [nLimbs]; omega)
    have hd : num lv INPUT_REGISTER_1 / base ^ k % base = (lv (INPUT_REGISTER_1 + k)).val := hd
    rw [← hd, mod_digit B0]
    exact byte_of_limb _ (by omega)
  · have : ¬ num lv INPUT_REGISTER_0 < 32 := by
      intro h32
      have := hlarge.1.2 h32
      rw [this, dg] at r5
      simp at r5
    rw [if_neg this]; simp

end Verif.Stark.Arith
