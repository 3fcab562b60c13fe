import Verif.Stark.Keccak.Gen

/-! The Keccak table: properties C85 and C86. -/

namespace Verif.Stark.Keccak

open Finset

/-- Property C85: in a table that satisfies the constraints, every exported output is the Keccak-f[1600] permutation of an input exported with
the same time. -/
def C85_statement : Prop := ∀ (n : ℕ) (T : ℕ → Row F), Satisfies evalKeccak n T → ∀ (out : ℕ → F) (time : F), ExportsOutput n T out time →
  ∃ A : Spec.State, ExportsInput n T (limbs A) time ∧ ∀ k < 50, out k = limbs (Spec.keccakF A) k

/-- What holds of C85: if moreover the columns C, A' and the bits of A''[0, 0] hold bits, which the constraints do not require, every exported
output is the permutation of an input exported with the same time. -/
theorem C85_permutation_partial {n : ℕ} {T : ℕ → Row F} (h : Satisfies evalKeccak n T) (hb : ∀ i < n, BitsOk (T i)) {out : ℕ → F} {time : F}
    (ho : ExportsOutput n T out time) :
    ∃ A : Spec.State, ExportsInput n T (limbs A) time ∧ ∀ k < 50, out k = limbs (Spec.keccakF A) k :=
  exports_output h hb ho

/-! ### Generation -/

/-- Property C86: the table generated for any list of inputs and times satisfies the constraints; it exports each input with its time and, with
the same time, the permutation of the input. -/
theorem C86_keccak (inputs : List (List ℕ × ℕ)) (minRows : ℕ) (hw : ∀ p ∈ inputs, ∀ v ∈ p.1, v < 2 ^ 64) :
    Satisfies evalKeccak (height inputs minRows) (traceRow inputs) ∧
    ∀ p ∈ inputs, ExportsInput (height inputs minRows) (traceRow inputs) (limbs (wordState p.1)) (p.2 : F) ∧
      ExportsOutput (height inputs minRows) (traceRow inputs) (limbs (Spec.keccakF (wordState p.1))) (p.2 : F) := by
  refine ⟨gen_sat hw (le_height inputs minRows), fun p hp => ?_⟩
  obtain ⟨j, hj, he⟩ := List.getElem_of_mem hp
  have hle := le_height inputs minRows
  have h0 : traceRow inputs (24 * j) = (permCells p 0).row := by
    rw [traceRow_some (p := p) (by rw [show 24 * j / 24 = j by omega, List.getElem?_eq_getElem hj, he]), show 24 * j % 24 = 0 by omega]
  have h23 : traceRow inputs (24 * j + 23) = (permCells p 23).row := by
    rw [traceRow_some (p := p) (by rw [show (24 * j + 23) / 24 = j by omega, List.getElem?_eq_getElem hj, he]), show (24 * j + 23) % 24 = 23 by omega]
  have hin := hw p hp
  constructor
  · refine ⟨24 * j, by omega, ?_, ?_, fun k hk => ?_⟩
    · rw [h0]; exact (permCells_step p (by decide)).2.1
    · rw [h0]; rfl
    · rw [h0, regInputLimb, row_a (by omega) (by omega) (by omega), limbs, ← limb_congr (limbState_input hin) (by omega) (by omega) (by omega),
        limb_limbState (inputLimbs_lt hin) (by omega) (by omega) (by omega)]
      rfl
  · refine ⟨24 * j + 23, by omega, ?_, ?_, fun k hk => ?_⟩
    · rw [h23]; exact (permCells_step p (by decide)).2.1
    · rw [h23]; rfl
    · have hS : Spec.Same (limbState (roundLimbs (inputLimbs p.1) 24)) (Spec.keccakF (wordState p.1)) :=
        (limbState_rounds (inputLimbs p.1) 24 le_rfl).trans (Spec.rounds_congr 24 (limbState_input hin))
      rw [h23, regOutputLimb, row_a3 (by omega) (by omega) (by omega), limbs, ← limb_congr hS (by omega) (by omega) (by omega),
        limb_limbState (roundLimbs_lt (inputLimbs_lt hin) 24 le_rfl) (by omega) (by omega) (by omega)]
      unfold permCells
      rw [out_next]
      rfl

/-- The generated bit columns hold bits, so that `C85_permutation_partial` applies to generated tables. -/
theorem gen_bits {inputs : List (List ℕ × ℕ)} (i : ℕ) : BitsOk (traceRow inputs i) := by
  have hb : ∀ b : Bool, b2f b = 0 ∨ b2f b = 1 := by intro b; cases b <;> simp [b2f]
  rcases h : inputs[i / 24]? with _ | p
  · rw [traceRow_none h]
    exact ⟨fun _ _ _ _ => .inl rfl, fun _ _ _ _ _ _ => .inl rfl, fun _ _ => .inl rfl⟩
  · rw [traceRow_some h]
    refine ⟨fun x hx z hz => ?_, fun x hx y hy z hz => ?_, fun j hj => ?_⟩
    · rw [row_c hx hz]; exact hb _
    · rw [row_a' hx hy hz]; exact hb _
    · rw [row_bit hj, permCells, bit_gen _ _ _ hj]; exact hb _

/-- The padded empty message of Keccak-256. -/
def emptyBlock : List ℕ := [1, 0, 0, 0, 0, 0, 0, 0, 0, 0, 0, 0, 0, 0, 0, 0, 0x8000000000000000, 0, 0, 0, 0, 0, 0, 0, 0]

/-- The hypotheses of C85 and C86 are met by the table of two permutations. -/
example : ∃ A, ExportsInput (height [(emptyBlock, 7), (List.replicate 25 5, 9)] 0) (traceRow [(emptyBlock, 7), (List.replicate 25 5, 9)]) (limbs A) ((9 : ℕ) : F) ∧
    ∀ k < 50, limbs (Spec.keccakF (wordState (List.replicate 25 5))) k = limbs (Spec.keccakF A) k := by
  have h := C86_keccak [(emptyBlock, 7), (List.replicate 25 5, 9)] 0 (by decide)
  exact C85_permutation_partial h.1 (fun i _ => gen_bits i) (h.2 (List.replicate 25 5, 9) (by simp)).2

/-! ### Forged outputs -/

/-- What is added to the bits of A''[0, 0]: `d` at the top bit of each limb, made up for at the bit below. -/
def delta (d : ℕ → F) (i : ℕ) : F := if i % 32 = 31 then d (i / 32) else if i % 32 = 30 then -2 * d (i / 32) else 0

theorem fold32_add (f g : ℕ → F) (s : ℕ) : fold32 (fun i => f i + g i) s = fold32 f s + fold32 g s := by
  rw [fold32_eq, fold32_eq, fold32_eq, ← sum_add_distrib]
  exact sum_congr rfl (fun z _ => by ring)

theorem fold32_top {f : ℕ → F} {s : ℕ} (h : ∀ z < 30, f (s + z) = 0) : fold32 f s = 2 ^ 30 * f (s + 30) + 2 ^ 31 * f (s + 31) := by
  rw [fold32_eq, sum_range_succ, sum_range_succ, sum_eq_zero (fun z hz => by rw [h z (mem_range.1 hz), mul_zero]), zero_add]

theorem delta_30 (d : ℕ → F) (h : ℕ) : delta d (32 * h + 30) = -2 * d h := by
  rw [delta, if_neg (by omega), if_pos (by omega), show (32 * h + 30) / 32 = h by omega]

theorem delta_31 (d : ℕ → F) (h : ℕ) : delta d (32 * h + 31) = d h := by
  rw [delta, if_pos (by omega), show (32 * h + 31) / 32 = h by omega]

theorem delta_low (d : ℕ → F) (h : ℕ) {z : ℕ} (hz : z < 30) : delta d (32 * h + z) = 0 := by
  rw [delta, if_neg (by omega), if_neg (by omega)]

/-- The bits of the last round constant that matter. -/
theorem rc23 : ∀ h < 2, Spec.rcBit 23 (32 * h + 30) = false ∧ Spec.rcBit 23 (32 * h + 31) = true := by decide +kernel

theorem two_pow_ne : (2 : F) ^ 32 ≠ 0 := by decide +kernel

/-- The last row of a permutation with the limbs of the output lane `(0, 0)` replaced by `t`. -/
def forge (K : Cells) (t : ℕ → F) : Cells :=
  { K with
    bit := fun i => K.bit i + delta (fun h => (K.a3 h - t h) * ((2 : F) ^ 32)⁻¹) i
    a3 := t }

theorem forge_ok {K : Cells} (hK : CellsOk K) (hs : K.step = stepOf 23) (t : ℕ → F) : CellsOk (forge K t) where
  flags := hK.flags
  cPrime := hK.cPrime
  input := hK.input
  diff := hK.diff
  chi := hK.chi
  bits h hh := by
    rw [← show K.a2 0 0 h = (forge K t).a2 0 0 h from rfl, ← hK.bits h hh]
    show fold32 (fun i => K.bit i + delta _ i) (32 * h) = _
    rw [fold32_add, fold32_top (fun z hz => delta_low _ h hz), delta_30, delta_31]
    ring
  iota h hh := by
    have hrc : ∀ i, (forge K t).rc i = K.rc i := fun _ => rfl
    have e : ∀ i, xorGen ((forge K t).bit i) ((forge K t).rc i) = xorGen (K.bit i) (K.rc i) +
        delta (fun h => (K.a3 h - t h) * ((2 : F) ^ 32)⁻¹) i * (1 - 2 * K.rc i) := by
      intro i
      rw [hrc]
      show xorGen (K.bit i + _) _ = _
      unfold xorGen; ring
    rw [fold32_congr (g := fun i => xorGen (K.bit i) (K.rc i) + delta (fun h => (K.a3 h - t h) * ((2 : F) ^ 32)⁻¹) i * (1 - 2 * K.rc i)) (fun z _ => e _),
      fold32_add, hK.iota h hh, fold32_top (fun z hz => by rw [delta_low _ h hz, zero_mul]), delta_30, delta_31,
      rc_sum (by decide) hs (by omega), rc_sum (by decide) hs (by omega), (rc23 h hh).1, (rc23 h hh).2]
    show K.a3 h + (2 ^ 30 * (-2 * ((K.a3 h - t h) * (2 ^ 32)⁻¹) * (1 - 2 * 0)) + 2 ^ 31 * ((K.a3 h - t h) * (2 ^ 32)⁻¹ * (1 - 2 * 1))) = t h
    have h2 : (2 : F) ^ 32 * ((2 : F) ^ 32)⁻¹ = 1 := mul_inv_cancel₀ two_pow_ne
    linear_combination (t h - K.a3 h) * h2

/-- The forged table: one permutation whose last row is forged. -/
def forgedRow (p : List ℕ × ℕ) (t : ℕ → F) (i : ℕ) : Row F := if i = 23 then (forge (permCells p 23) t).row else traceRow [p] i

theorem forged_sat (p : List ℕ × ℕ) (hp : ∀ v ∈ p.1, v < 2 ^ 64) (t : ℕ → F) : Satisfies evalKeccak 32 (forgedRow p t) := by
  have hw : Words [p] := by intro q hq; rw [List.mem_singleton.1 hq]; exact hp
  have hg := sat_iff.1 (gen_sat hw (n := 32) (by simp))
  have hrow : ∀ i, i ≠ 23 → forgedRow p t i = traceRow [p] i := fun i hi => if_neg hi
  have h23 : forgedRow p t 23 = (forge (permCells p 23) t).row := if_pos rfl
  have hs23 : StepIs (forgedRow p t 23) 23 := by rw [h23]; exact stepIs_row (by decide) rfl
  have hpad : traceRow [p] 24 = zeroRow := traceRow_none rfl
  refine sat_iff.2 (fun i hi => ?_)
  by_cases hi23 : i = 23
  · subst hi23
    refine ⟨?_, fun h => absurd h (by decide), fun _ => ?_, ?_⟩
    · rw [h23]; exact (forge_ok (permCells_ok hw (List.mem_singleton.2 rfl) (by decide)) rfl t).row
    · rw [show (23 + 1) % 32 = 24 from rfl, hrow 24 (by decide), hpad]
      exact nextOk_last hs23 (.inr zero_pad)
    · rw [hs23.2.1, sub_self, mul_zero, zero_mul]
  · obtain ⟨h1, h2, h3, h4⟩ := hg i hi
    rw [hrow i hi23]
    refine ⟨h1, h2, ?_, ?_⟩
    · intro hne
      by_cases h22 : i = 22
      · subst h22
        rw [show (22 + 1) % 32 = 23 from rfl]
        have e22 : traceRow [p] 22 = (permCells p 22).row := traceRow_some rfl
        rw [e22]
        refine nextOk_step (by decide) (permCells_step p (by decide)) hs23 (fun x hx y hy => ?_)
        rw [h23, row_a30 hx hy, row_a3 hx hy (by decide), row_a0 hx hy, row_a hx hy (by decide)]
        unfold permCells
        rw [out_next, out_next]
        exact ⟨rfl, rfl⟩
      · rw [hrow _ (by omega)]; exact h3 hne
    · by_cases h22 : (i + 1) % 32 = 23
      · have : forgedRow p t ((i + 1) % 32) TIMESTAMP = traceRow [p] ((i + 1) % 32) TIMESTAMP := by
          rw [h22, h23, show traceRow [p] 23 = (permCells p 23).row from traceRow_some rfl, row_ts, row_ts]
          rfl
        rw [this]; exact h4
      · rw [hrow _ h22]; exact h4

/-- Any output lane: for every input, every time and every two values there is a table that satisfies the constraints, whose only input is the
given one and whose only output, exported with the same time, has the two given values as its first two limbs and the limbs of the permutation in
the other places. So the constraints say nothing about the first lane of the output, that is the first eight bytes of a hash. -/
theorem C85_violated_forge (input : List ℕ) (hin : ∀ v ∈ input, v < 2 ^ 64) (time : ℕ) (lo hi : F) :
    ∃ T : ℕ → Row F, Satisfies evalKeccak 32 T ∧ ExportsInput 32 T (limbs (wordState input)) time ∧
      ExportsOutput 32 T (fun k => if k = 0 then lo else if k = 1 then hi else limbs (Spec.keccakF (wordState input)) k) time ∧
      ∀ l τ, ExportsInput 32 T l τ → ∀ k < 50, l k = limbs (wordState input) k := by
  have hw : ∀ p ∈ [(input, time)], ∀ v ∈ p.1, v < 2 ^ 64 := by intro q hq; rw [List.mem_singleton.1 hq]; exact hin
  let t : ℕ → F := fun h => if h = 0 then lo else hi
  have hrow : ∀ i, i ≠ 23 → forgedRow (input, time) t i = traceRow [(input, time)] i := fun i hi => if_neg hi
  have e0 : traceRow [(input, time)] 0 = (permCells (input, time) 0).row := traceRow_some rfl
  have hlim : ∀ k < 50, forgedRow (input, time) t 0 (regInputLimb k) = limbs (wordState input) k := by
    intro k hk
    rw [hrow 0 (by decide), e0, regInputLimb, row_a (by omega) (by omega) (by omega), limbs,
      ← limb_congr (limbState_input hin) (by omega) (by omega) (by omega), limb_limbState (inputLimbs_lt hin) (by omega) (by omega) (by omega)]
    rfl
  refine ⟨forgedRow (input, time) t, forged_sat _ hin t, ⟨0, by decide, ?_, ?_, hlim⟩, ⟨23, by decide, ?_, ?_, fun k hk => ?_⟩, ?_⟩
  · rw [hrow 0 (by decide), e0]; exact (permCells_step _ (by decide)).2.1
  · rw [hrow 0 (by decide), e0, row_ts]; rfl
  · rw [forgedRow, if_pos rfl]; exact (stepIs_row (K := forge (permCells (input, time) 23) t) (k := 23) (by decide) rfl).2.1
  · rw [forgedRow, if_pos rfl, row_ts]; rfl
  · rw [forgedRow, if_pos rfl, regOutputLimb, row_a3 (by omega) (by omega) (by omega)]
    by_cases h0 : k = 0
    · subst h0
      rw [Cells.out, if_pos ⟨rfl, rfl⟩]; rfl
    · by_cases h1 : k = 1
      · subst h1
        rw [Cells.out, if_pos ⟨rfl, rfl⟩]; rfl
      · have hne : ¬ (k / 2 % 5 = 0 ∧ k / 2 / 5 = 0) := by omega
        have hS : Spec.Same (limbState (roundLimbs (inputLimbs input) 24)) (Spec.keccakF (wordState input)) :=
          (limbState_rounds (inputLimbs input) 24 le_rfl).trans (Spec.rounds_congr 24 (limbState_input hin))
        rw [Cells.out, if_neg hne]
        simp only [h0, h1, if_false]
        rw [limbs, ← limb_congr hS (by omega) (by omega) (by omega),
          limb_limbState (roundLimbs_lt (inputLimbs_lt hin) 24 le_rfl) (by omega) (by omega) (by omega)]
        have := out_next (roundLimbs (inputLimbs input) 23) 23 (time : F) (k / 2 % 5) (k / 2 / 5) (k % 2)
        rw [Cells.out, if_neg hne] at this
        rw [show roundLimbs (inputLimbs input) 24 = nextLimbs (roundLimbs (inputLimbs input) 23) 23 from rfl, ← this]
        rfl
  · rintro l τ ⟨i, hi, h1, -, hl⟩ k hk
    have hi0 : i = 0 := by
      by_contra hne
      by_cases h23 : i = 23
      · rw [forgedRow, if_pos h23, (stepIs_row (K := forge (permCells (input, time) 23) t) (k := 23) (by decide) rfl).2.2 0 (by decide) (by decide)] at h1
        exact zero_ne_one h1
      · rw [hrow i h23] at h1
        rcases hq : [(input, time)][i / 24]? with _ | p
        · rw [traceRow_none hq] at h1; exact zero_ne_one h1
        · rw [traceRow_some hq, (permCells_step p (show i % 24 < 24 by omega)).2.2 0 (by decide) ?_] at h1
          · exact zero_ne_one h1
          · have := (List.getElem?_eq_some_iff.1 hq).1
            simp at this
            omega
    rw [← hl k hk, hi0, hlim k hk]

theorem limbs_same {A B : Spec.State} (h : ∀ k < 50, limbs A k = limbs B k) : Spec.Same A B := by
  refine same_of_limbs (fun x hx y hy j hj => ?_)
  have := h (2 * (5 * y + x) + j) (by omega)
  unfold limbs at this
  rwa [show (2 * (5 * y + x) + j) / 2 % 5 = x by omega, show (2 * (5 * y + x) + j) / 2 / 5 = y by omega, show (2 * (5 * y + x) + j) % 2 = j by omega] at this

/-- C85 is false of the constraints, already with an output whose limbs are 32-bit words: the first limb of the permutation of the padded empty
message can be exported as 0 or 1. -/
theorem C85_violated : ¬ C85_statement := by
  intro hc
  have key : ∀ lo : F, lo = limbs (Spec.keccakF (wordState emptyBlock)) 0 := by
    intro lo
    obtain ⟨T, hT, -, hout, honly⟩ := C85_violated_forge emptyBlock (by decide) 7 lo 0
    obtain ⟨A, hA, he⟩ := hc 32 T hT _ _ hout
    have hS : Spec.Same A (wordState emptyBlock) := limbs_same (honly _ _ hA)
    have h0 := he 0 (by decide)
    rw [if_pos rfl] at h0
    rw [h0]
    exact limb_congr (Spec.rounds_congr 24 hS) (by decide) (by decide) (by decide)
  exact zero_ne_one ((key 0).trans (key 1).symm)

end Verif.Stark.Keccak
