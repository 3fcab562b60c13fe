import Verif.Stark.Arith.GenDivmod

/-! The rows generated for ADDMOD, MULMOD, SUBMOD and their variants over the field of the curve. -/

namespace Verif.Stark.Arith

open Finset

theorem submodConstr_zero (lv nv : Row F) (o m q : Limbs F) : AllZero (submodConstrPoly lv nv 0 o m q).1 := by
  unfold submodConstrPoly
  simp only
  refine AllZero.append ?_ (modularConstr_zero _ _ _ _ _)
  intro c hc
  rcases List.mem_cons.1 hc with rfl | hc
  · ring
  · obtain ⟨i, -, rfl⟩ := List.mem_map.1 hc; ring

/-- The row before the modular operation. -/
def modRow (f a b c : ℕ) : Row F := setU256 (setU256 (setU256 (flagRow f) INPUT_REGISTER_0 a) INPUT_REGISTER_1 b) INPUT_REGISTER_2 c

theorem modRow_ok {f : ℕ} (hf : f < 18) (a b c : ℕ) : RowOk (flagRow f) (modRow f a b c) :=
  ((((RowOk.flag hf).setU256 _ (by decide)).setU256 _ (by decide)).setU256 _ (by decide))

theorem modRow_cells {f a b c : ℕ} : (∀ i < nLimbs, modRow f a b c (INPUT_REGISTER_0 + i) = u256Limbs a i) ∧
    (∀ i < nLimbs, modRow f a b c (INPUT_REGISTER_1 + i) = u256Limbs b i) ∧ (∀ i < nLimbs, modRow f a b c (INPUT_REGISTER_2 + i) = u256Limbs c i) := by
  simp only [nLimbs]
  refine ⟨fun i hi => ?_, fun i hi => ?_, fun i hi => ?_⟩ <;> unfold modRow <;> cells

/-- The classes of the operations. -/
inductive Kind | add | sub | mul
  deriving DecidableEq

/-- The filter belongs to the class. -/
def Kind.Has (k : Kind) (f : ℕ) : Prop :=
  match k with
  | .add => f = IS_ADDMOD ∨ f = IS_ADDFP254
  | .sub => f = IS_SUBMOD ∨ f = IS_SUBFP254
  | .mul => f = IS_MULMOD ∨ f = IS_MULFP254

/-- The coefficients of the operation on the inputs, over any ring. -/
def Kind.pol {R : Type} [CommRing R] (k : Kind) (a b : Limbs R) : Limbs R :=
  match k with
  | .add => zeroExtend nLimbs (fun i => a i + b i)
  | .sub => zeroExtend nLimbs (fun i => a i - b i)
  | .mul => polMul nLimbs nLimbs a b

/-- The operation on numbers. -/
def Kind.val (k : Kind) (a b : ℕ) : ℤ :=
  match k with
  | .add => a + b
  | .sub => a - b
  | .mul => a * b

theorem polInput_kind {k : Kind} {f : ℕ} (h : k.Has f) (a b : Limbs ℤ) : polInput f a b = some (k.pol a b) := by
  cases k <;> rcases h with rfl | rfl <;> rfl

theorem Kind.pol_cast {k : Kind} {a b : Limbs F} {A B : Limbs ℤ} (ha : ∀ i < nLimbs, a i = (A i : F)) (hb : ∀ i < nLimbs, b i = (B i : F)) (i : ℕ) :
    k.pol a b i = ((k.pol A B i : ℤ) : F) := by
  cases k <;> unfold Kind.pol <;> dsimp only
  · unfold zeroExtend
    split
    · rename_i h; dsimp only; rw [ha i h, hb i h]; push_cast; rfl
    · simp
  · unfold zeroExtend
    split
    · rename_i h; dsimp only; rw [ha i h, hb i h]; push_cast; rfl
    · simp
  · exact polMul_cast ha hb i

theorem Kind.ev (k : Kind) (a b : Limbs ℤ) {x y : ℕ} (ha : ev (65536 : ℤ) nLimbs a = x) (hb : ev (65536 : ℤ) nLimbs b = y) :
    ev (65536 : ℤ) (2 * nLimbs - 1) (k.pol a b) = k.val x y := by
  cases k <;> unfold Kind.pol Kind.val <;> dsimp only
  · rw [ev_zeroExtend _ (by decide), ev_add, ha, hb]
  · rw [ev_zeroExtend _ (by decide), ev_sub, ha, hb]
  · rw [ev_polMul _ (by decide), ha, hb]

theorem Kind.val_bound (k : Kind) {x y : ℕ} (hx : x < 2 ^ 256) (hy : y < 2 ^ 256) : -2 ^ 256 < k.val x y ∧ k.val x y < 2 ^ 512 ∧
    (k ≠ .sub → 0 ≤ k.val x y) ∧ (k = .sub → k.val x y < 2 ^ 256) := by
  have hx' : (x : ℤ) < 2 ^ 256 := by exact_mod_cast hx
  have hy' : (y : ℤ) < 2 ^ 256 := by exact_mod_cast hy
  have h5 : (2 : ℤ) ^ 512 = 2 ^ 256 * 2 ^ 256 := by rw [← pow_add]
  have hp : (0 : ℤ) < 2 ^ 256 := by norm_num
  have h6 : (2 : ℤ) * 2 ^ 256 ≤ 2 ^ 256 * 2 ^ 256 := mul_le_mul_of_nonneg_right (by norm_num) (by norm_num)
  rw [h5]
  clear hx hy h5
  generalize (2 : ℤ) ^ 256 = N at *
  cases k <;> unfold Kind.val <;> simp
  · omega
  · omega
  · have h0 : (0 : ℤ) ≤ x * y := by positivity
    refine ⟨by omega, ?_, h0⟩
    exact mul_lt_mul'' hx' hy' (by omega) (by omega)

theorem Kind.pol_bound (k : Kind) {a b : Limbs ℤ} (ha : ∀ i < nLimbs, 0 ≤ a i ∧ a i < 65536) (hb : ∀ i < nLimbs, 0 ≤ b i ∧ b i < 65536) :
    (∀ i < 2 * nLimbs - 1, 0 ≤ k.pol a b i ∧ k.pol a b i ≤ 16 * (65535 * 65535)) ∨ (∀ i < 2 * nLimbs - 1, |k.pol a b i| ≤ 65535) := by
  cases k
  · refine .inl (fun i _ => ?_)
    unfold Kind.pol zeroExtend
    dsimp only
    split
    · rename_i h; have := ha i h; have := hb i h; omega
    · norm_num
  · refine .inr (fun i _ => ?_)
    unfold Kind.pol zeroExtend
    dsimp only
    split
    · rename_i h; have := ha i h; have := hb i h; rw [abs_le]; omega
    · norm_num
  · refine .inl (fun i _ => ?_)
    unfold Kind.pol
    dsimp only
    refine ⟨polMul_nonneg (fun j hj => (ha j hj).1) (fun j hj => (hb j hj).1) i, ?_⟩
    have := abs_polMul_le' (n := nLimbs) (m := nLimbs) (a := a) (b := b) (A := 65535) (B := 65535)
      (fun i hi => by have := ha i hi; rw [abs_le]; constructor <;> omega) (fun i hi => by have := hb i hi; rw [abs_le]; constructor <;> omega)
      (by norm_num) (by norm_num) i
    rw [abs_le] at this
    exact this.2

/-- The filters of the classes. -/
theorem kind_filters {k : Kind} {f : ℕ} (h : k.Has f) :
    (flagRow f IS_ADDMOD + flagRow f IS_ADDFP254 = if k = .add then 1 else 0) ∧ (flagRow f IS_SUBMOD + flagRow f IS_SUBFP254 = if k = .sub then 1 else 0) ∧
    (flagRow f IS_MULMOD + flagRow f IS_MULFP254 = if k = .mul then 1 else 0) ∧ f < 17 ∧ (f = IS_DIV || f = IS_SHR : Bool) = false ∧
    (f = IS_SUBMOD || f = IS_SUBFP254 : Bool) = (k = .sub : Bool) ∧ f ∈ [IS_ADDMOD, IS_SUBMOD, IS_MULMOD, IS_ADDFP254, IS_MULFP254, IS_SUBFP254] := by
  cases k <;> rcases h with rfl | rfl <;> refine ⟨?_, ?_, ?_, by decide, ?_, ?_, ?_⟩ <;> simp [flagRow]

/-- The operations over the field of the curve. -/
def isFp (f : ℕ) : Bool := f = IS_ADDFP254 || f = IS_MULFP254 || f = IS_SUBFP254

theorem fp_filter {k : Kind} {f : ℕ} (h : k.Has f) : flagRow f IS_ADDFP254 + flagRow f IS_MULFP254 + flagRow f IS_SUBFP254 = if isFp f then 1 else 0 := by
  cases k <;> rcases h with rfl | rfl <;> simp [flagRow, isFp]

theorem mod_part {l m : Row F} {p : List ℕ × List (Constr F)} {f : ℕ} (hp : p ∈ parts l m) (hf : f ∈ p.1)
    (h : f ∈ [IS_ADDMOD, IS_SUBMOD, IS_MULMOD, IS_ADDFP254, IS_MULFP254, IS_SUBFP254]) : p.2 = evalModular l m := by
  simp only [parts, List.mem_cons, List.not_mem_nil, or_false] at hp
  simp only [List.mem_cons, List.not_mem_nil, or_false] at h
  rcases hp with rfl | rfl | rfl | rfl | rfl | rfl | rfl | rfl | rfl | rfl | rfl <;> dsimp only at hf ⊢ <;>
    rcases h with rfl | rfl | rfl | rfl | rfl | rfl <;> exact absurd hf (by decide)

theorem bn_limbs : ∀ i < nLimbs, u256Limbs bnBase i = ((bn254Limbs.getD i 0 : ℕ) : F) := by
  unfold u256Limbs
  intro i hi
  have : ∀ i < 16, bnBase / 65536 ^ i % 65536 = bn254Limbs.getD i 0 := by decide +kernel
  exact congrArg _ (this i hi)

/-- The two rows of a modular operation, and its result. -/
theorem modular_gen {k : Kind} {f a b c : ℕ} (hk : k.Has f) (ha : a < 2 ^ 256) (hb : b < 2 ^ 256) (hc : c < 2 ^ 256) (hfp : isFp f = true → c = bnBase) :
    ∃ lv nv o, genModular (flagRow f) (fun _ => 0) f a b c = some (lv, nv) ∧ TwoRows f lv nv a b c o ∧
      (o : ℤ) = if c = 0 then 0 else k.val a b % c := by
  obtain ⟨f1, f2, f3, f4, f5, f6, f7⟩ := kind_filters hk
  have f8 := fp_filter hk
  have ok0 := modRow_ok (f := f) (by omega) a b c
  obtain ⟨c0, c1, c2⟩ := modRow_cells (f := f) (a := a) (b := b) (c := c)
  have n0 := num_u256 c0 ha
  have n1 := num_u256 c1 hb
  have n2 := num_u256 c2 hc
  have hlow0 : ∀ d < 18, modRow f a b c d = flagRow f d := ok0.flags
  generalize hrow : modRow f a b c = row at *
  have s0 : InShared INPUT_REGISTER_0 := ⟨by decide, by decide⟩
  have s1 : InShared INPUT_REGISTER_1 := ⟨by decide, by decide⟩
  have s2 : InShared INPUT_REGISTER_2 := ⟨by decide, by decide⟩
  have e : ev (65536 : ℤ) (2 * nLimbs - 1) (k.pol (limbs row INPUT_REGISTER_0) (limbs row INPUT_REGISTER_1)) = k.val a b :=
    k.ev _ _ (by rw [ev_num, n0]) (by rw [ev_num, n1])
  obtain ⟨v1, v2, v3, v4⟩ := k.val_bound ha hb
  obtain ⟨r, o, q, h1, g⟩ := modularLimbs_good (filter := f) (I := k.pol (limbs row INPUT_REGISTER_0) (limbs row INPUT_REGISTER_1))
    (M := limbs row INPUT_REGISTER_2) (limbs_ok ok0.ranged s2) (k.pol_bound (limbs_ok ok0.ranged s0) (limbs_ok ok0.ranged s1)) (by rw [e]; exact v1)
    (by rw [e]; exact v2) (fun h => by rw [f5] at h; cases h)
  rw [f5, f6] at g
  have geq := g.eq
  have glt := g.o_lt
  have go := g.o_nonneg
  rw [e, ev_num, n2] at geq
  rw [ev_num, n2] at glt
  have hc' : (c : ℤ) < 2 ^ 256 := by exact_mod_cast hc
  obtain ⟨u1, u2⟩ := usedModulus_pos (D := false) (m := c) (by omega) hc'
  -- the result
  have ho : o = if c = 0 then 0 else k.val a b % c := by
    unfold usedModulus at geq glt
    by_cases h : c = 0
    · rw [if_pos h]
      simp only [h, Nat.cast_zero, if_true, Bool.false_eq_true, if_false] at glt
      omega
    · rw [if_neg h]
      rw [if_neg (by exact_mod_cast h)] at geq glt
      exact emod_of geq go glt
  -- the quotient
  have hq0 : k ≠ .sub → 0 ≤ q := by
    intro h
    have := v3 h
    by_contra hcon
    have : q * usedModulus false c ≤ -1 * usedModulus false c := mul_le_mul_of_nonneg_right (by omega) (by omega)
    omega
  have hqs : k = .sub → -2 ^ 256 < q ∧ q < 2 ^ 256 := by
    intro h
    have := v4 h
    generalize usedModulus false c = u at *
    constructor
    · by_contra hcon
      have h2 : q * u ≤ -2 ^ 256 * u := mul_le_mul_of_nonneg_right (by omega) (by omega)
      have h3 : (2 : ℤ) ^ 256 * 1 + (u - 1) * 1 ≤ 2 ^ 256 * 1 + (u - 1) * 2 ^ 256 := by
        have : (u - 1) * 1 ≤ (u - 1) * 2 ^ 256 := mul_le_mul_of_nonneg_left (by norm_num) (by omega)
        omega
      have h4 : (2 : ℤ) ^ 256 * 1 + (u - 1) * 2 ^ 256 = 2 ^ 256 * u := by ring
      have h5 : -(2 : ℤ) ^ 256 * u = -(2 ^ 256 * u) := by ring
      omega
    · by_contra hcon
      have h2 : 2 ^ 256 * 1 ≤ q * u := mul_le_mul (by omega) u1 (by norm_num) (by
        have : (0 : ℤ) ≤ 2 ^ 256 := by norm_num
        omega)
      omega
  have hqlt : k = .sub → q.natAbs < 65536 ^ nLimbs := by
    intro h
    have h2 := hqs h
    have h3 : (65536 : ℤ) ^ nLimbs = 2 ^ 256 := pow_256
    zify; rw [abs_lt]; omega
  have hcols : ∀ i, 0 ≤ r.quo i ∧ r.quo i < 65536 := by
    intro i
    rw [g.quo]
    by_cases h : k = .sub
    · simp only [h, decide_true, if_true]
      split
      · split
        · rename_i h0; have := colLimb_neg h0 i; omega
        · exact colLimb_nonneg (by omega) i
      · split
        · split <;> norm_num
        · rw [colLimb_high (hqlt h) (by omega)]; norm_num
    · simp only [h, decide_false, Bool.false_eq_true, if_false]
      exact colLimb_nonneg (hq0 h) i
  have hdiv : row IS_DIV + row IS_SHR = if false then 1 else 0 := by
    rw [hlow0 _ (by decide), hlow0 _ (by decide), div_flags, f5]
  have ok : RowOk (flagRow f) (setReg (setReg row OUTPUT_REGISTER nLimbs (fun i => (r.out i : F))) MODULAR_QUO_INPUT (2 * nLimbs) (fun i => (r.quo i : F))) := by
    refine (ok0.setReg (by decide) (fun i _ => ?_)).setReg (by decide) (fun i _ => int_val_lt (hcols i))
    rw [g.out]; exact int_val_lt (colLimb_nonneg go i)
  have hlow : ∀ d < 66, setReg (setReg row OUTPUT_REGISTER nLimbs (fun i => (r.out i : F))) MODULAR_QUO_INPUT (2 * nLimbs) (fun i => (r.quo i : F)) d = row d := by
    intro d hd; cells
  have hout : ∀ i < nLimbs, setReg (setReg row OUTPUT_REGISTER nLimbs (fun i => (r.out i : F))) MODULAR_QUO_INPUT (2 * nLimbs) (fun i => (r.quo i : F))
      (OUTPUT_REGISTER + i) = (colLimb o i : F) := by
    simp only [nLimbs]; intro i hi; cells; rw [g.out]
  have hquo : ∀ i < 2 * nLimbs, setReg (setReg row OUTPUT_REGISTER nLimbs (fun i => (r.out i : F))) MODULAR_QUO_INPUT (2 * nLimbs) (fun i => (r.quo i : F))
      (MODULAR_QUO_INPUT + i) = (r.quo i : F) := by
    simp only [nLimbs]; intro i hi; cells
  generalize hlv : setReg (setReg row OUTPUT_REGISTER nLimbs (fun i => (r.out i : F))) MODULAR_QUO_INPUT (2 * nLimbs) (fun i => (r.quo i : F)) = lv at *
  obtain ⟨o', rfl, ho'⟩ := nat_lt_256 go (by omega)
  refine ⟨lv, modularNext row (fun _ => 0) r, o', ?_, ⟨ok, modularNext_ok g (limbs_ok ok0.ranged s2) hdiv, ?_, ?_⟩, ho⟩
  · unfold genModular
    rw [← hlv]
    unfold modRow at hrow
    simp only [hrow, polInput_kind hk, h1, Option.bind_eq_bind, Option.bind_some]
  · intro l m hl hm
    have hfl := (ok.agrees hl).flags
    refine holds_of_part hfl (fun p hp hf => ?_)
    have hlow' : ∀ d < 66, l d = row d := fun d hd => by rw [hl d (by omega), hlow d hd]
    have hout' : ∀ i < nLimbs, reg l OUTPUT_REGISTER i = (colLimb o' i : F) := fun i hi => by
      unfold reg; rw [hl _ (by simp only [nLimbs] at hi; regs; omega), hout i hi]
    have hquo' : ∀ i < 2 * nLimbs, reg l MODULAR_QUO_INPUT i = (r.quo i : F) := fun i hi => by
      unfold reg; rw [hl _ (by simp only [nLimbs] at hi; regs; omega), hquo i hi]
    have hmod' : ∀ i < nLimbs, reg l INPUT_REGISTER_2 i = (limbs row INPUT_REGISTER_2 i : F) :=
      limbs_same (fun i hi => hlow' _ (by simp only [nLimbs] at hi; regs; omega))
    have hin0 : ∀ i < nLimbs, reg l INPUT_REGISTER_0 i = (limbs row INPUT_REGISTER_0 i : F) :=
      limbs_same (fun i hi => hlow' _ (by simp only [nLimbs] at hi; regs; omega))
    have hin1 : ∀ i < nLimbs, reg l INPUT_REGISTER_1 i = (limbs row INPUT_REGISTER_1 i : F) :=
      limbs_same (fun i hi => hlow' _ (by simp only [nLimbs] at hi; regs; omega))
    have hdl : l IS_DIV + l IS_SHR = row IS_DIV + row IS_SHR := by rw [hlow' _ (by decide), hlow' _ (by decide)]
    obtain ⟨d1, d2, d3, d4, d5⟩ := next_cells hm
    have main : ∀ quot : Limbs F, (∀ i < 2 * nLimbs, quot i = (colLimb q i : F)) →
        AllZero (modularConstrPoly l m 1 (reg l OUTPUT_REGISTER) (reg l INPUT_REGISTER_2) quot).1 ∧
        ∀ i < 2 * nLimbs, polSub (2 * nLimbs - 1) (modularConstrPoly l m 1 (reg l OUTPUT_REGISTER) (reg l INPUT_REGISTER_2) quot).2
          (k.pol (reg l INPUT_REGISTER_0) (reg l INPUT_REGISTER_1)) i = 0 := by
      intro quot hqq
      obtain ⟨m1, m2⟩ := modular_complete (lv := l) (nv := m) g (limbs_ok ok0.ranged s2) (by rw [hdl, hdiv]) hout' hmod' hqq d1 d2 d3 d4 (by rw [d5, hdl])
      refine ⟨m1, fun i hi => ?_⟩
      have := m2 i hi
      generalize hn' : (2 * nLimbs - 1) = n' at *
      unfold polSub
      rw [this]
      unfold zeroExtend
      split
      · rw [Kind.pol_cast hin0 hin1, sub_self]
      · simp
    rw [mod_part hp hf f7]
    have A1 : l IS_ADDMOD + l IS_ADDFP254 = if k = .add then 1 else 0 := by rw [hfl _ (by decide), hfl _ (by decide), f1]
    have A2 : l IS_SUBMOD + l IS_SUBFP254 = if k = .sub then 1 else 0 := by rw [hfl _ (by decide), hfl _ (by decide), f2]
    have A3 : l IS_MULMOD + l IS_MULFP254 = if k = .mul then 1 else 0 := by rw [hfl _ (by decide), hfl _ (by decide), f3]
    have A4 : l IS_ADDFP254 + l IS_MULFP254 + l IS_SUBFP254 = if isFp f then 1 else 0 := by
      rw [hfl _ (by decide), hfl _ (by decide), hfl _ (by decide), f8]
    unfold evalModular
    dsimp only
    rw [A1, A2, A3, A4]
    simp only [Holds.append, Holds.map (.inr rfl)]
    refine ⟨⟨⟨⟨⟨⟨?_, fun i hi => ?_⟩, ?_⟩, ?_⟩, fun i hi => ?_⟩, fun i hi => ?_⟩, fun i hi => ?_⟩
    · intro c hc hon
      simp only [List.mem_singleton] at hc
      subst hc
      rcases hon with h | h <;> cases h
    · by_cases h : isFp f = true
      · rw [if_pos h, one_mul]
        have : reg l INPUT_REGISTER_2 i = u256Limbs bnBase i := by
          rw [hmod' i hi, ← limbs_cast, reg, c2 i hi, hfp h]
        rw [this, bn_limbs i hi, sub_self]
      · rw [if_neg h, zero_mul]
    · by_cases h : k = .sub
      · rw [if_pos h]
        have hs : ∀ i < 2 * nLimbs, subQuot (reg l MODULAR_QUO_INPUT) i = (colLimb q i : F) := by
          intro i hi
          unfold subQuot
          rw [hquo' i hi, hquo' nLimbs (by decide), g.quo]
          simp only [h, decide_true, if_true, lt_irrefl, if_false]
          split
          · split <;> push_cast <;> ring
          · split
            · rename_i h2; rw [h2, colLimb_high (hqlt h) (le_refl _), Int.cast_zero]
            · rfl
        unfold submodConstrPoly
        dsimp only
        refine Holds.append.2 ⟨?_, (main _ hs).1.holds⟩
        intro c hc _
        rcases List.mem_cons.1 hc with rfl | hc
        · dsimp only
          rw [hquo' nLimbs (by decide), g.quo]
          simp only [h, decide_true, if_true, lt_irrefl, if_false]
          split <;> push_cast <;> ring
        · obtain ⟨i, hi, rfl⟩ := List.mem_map.1 hc
          have hi := List.mem_range.1 hi
          dsimp only
          rw [hs _ (by omega), colLimb_high (hqlt h) (by omega), Int.cast_zero, mul_zero]
      · rw [if_neg h]; exact (submodConstr_zero _ _ _ _ _).holds
    · by_cases h : k = .sub
      · rw [if_neg (by rw [h]; decide), if_neg (by rw [h]; decide), add_zero]; exact (modularConstr_zero _ _ _ _ _).holds
      · have : ((if k = .add then 1 else 0) + (if k = .mul then 1 else 0) : F) = 1 := by
          cases k <;> simp at h ⊢
        rw [this]
        refine (main _ (fun i hi => ?_)).1.holds
        rw [hquo' i hi, g.quo]; simp [h]
    · by_cases h : k = .add
      · subst h
        simp only [if_true, reduceCtorEq, if_false, add_zero, one_mul]
        refine (main _ (fun i hi => ?_)).2 i hi
        rw [hquo' i hi, g.quo]; simp
      · rw [if_neg h, zero_mul]
    · by_cases h : k = .sub
      · subst h
        simp only [if_true, one_mul]
        refine (main _ (fun i hi => ?_)).2 i hi
        unfold subQuot
        rw [hquo' i hi, hquo' nLimbs (by decide), g.quo]
        simp only [decide_true, if_true, lt_irrefl, if_false]
        split
        · split <;> push_cast <;> ring
        · split
          · rename_i h2; rw [h2, colLimb_high (hqlt rfl) (le_refl _), Int.cast_zero]
          · rfl
      · rw [if_neg h, zero_mul]
    · by_cases h : k = .mul
      · subst h
        simp only [if_true, reduceCtorEq, if_false, zero_add, one_mul]
        refine (main _ (fun i hi => ?_)).2 i hi
        rw [hquo' i hi, g.quo]; simp
      · rw [if_neg h, zero_mul]
  · refine ⟨?_, ?_, ?_, ?_⟩
    · rw [← n0]; exact num_congr (fun i hi => hlow _ (by simp only [nLimbs] at hi; regs; omega))
    · rw [← n1]; exact num_congr (fun i hi => hlow _ (by simp only [nLimbs] at hi; regs; omega))
    · rw [← n2]; exact num_congr (fun i hi => hlow _ (by simp only [nLimbs] at hi; regs; omega))
    · exact num_u256 (fun i hi => by rw [hout i hi, u256_colLimb]) ho'

/-! ### Results -/

theorem raise_spec (x y m : ℕ) (hm : 0 < m) : y ≤ raise x y m hm ∧ ∃ k, raise x y m hm = x + k * m := by
  fun_induction raise x y m hm with
  | case1 x h ih =>
    obtain ⟨h1, k, h2⟩ := ih
    exact ⟨h1, k + 1, by rw [h2]; ring⟩
  | case2 x h => exact ⟨by omega, 0, by simp⟩

theorem submod_eq (x y m : ℕ) : (submod x y m : ℤ) = if m = 0 then 0 else ((x : ℤ) - y) % m := by
  unfold submod
  split
  · rename_i h; rw [h]; rfl
  · rename_i h
    obtain ⟨h1, k, h2⟩ := raise_spec x y m (Nat.pos_of_ne_zero h)
    rw [Int.natCast_mod, Nat.cast_sub h1, h2]
    push_cast
    rw [show (x : ℤ) + k * m - y = (x - y) + k * m by ring, Int.add_mul_emod_self_right]

theorem addmod_eq (x y m : ℕ) : (addmod x y m : ℤ) = if m = 0 then 0 else ((x : ℤ) + y) % m := by
  unfold addmod; split
  · rename_i h; rw [h]; rfl
  · push_cast; rfl

theorem mulmod_eq (x y m : ℕ) : (mulmod x y m : ℤ) = if m = 0 then 0 else ((x : ℤ) * y) % m := by
  unfold mulmod; split
  · rename_i h; rw [h]; rfl
  · push_cast; rfl

theorem bnBase_lt : bnBase < 2 ^ 256 := by decide +kernel

theorem ternary_gen (op : TernaryOp) {a b c : ℕ} (ha : a < 2 ^ 256) (hb : b < 2 ^ 256) (hc : c < 2 ^ 256) :
    ∃ lv nv, ternaryRows op.rowFilter a b c = some [lv, nv] ∧ TwoRows op.rowFilter lv nv a b c (op.result a b c) := by
  have : ∃ lv nv o, genModular (flagRow op.rowFilter) (fun _ => 0) op.rowFilter a b c = some (lv, nv) ∧ TwoRows op.rowFilter lv nv a b c o ∧
      o = op.result a b c := by
    cases op
    · obtain ⟨lv, nv, o, h1, h2, h3⟩ := modular_gen (k := .add) (f := IS_ADDMOD) (.inl rfl) ha hb hc (fun h => by cases h)
      exact ⟨lv, nv, o, h1, h2, Nat.cast_injective (R := ℤ) (h3.trans (addmod_eq a b c).symm)⟩
    · obtain ⟨lv, nv, o, h1, h2, h3⟩ := modular_gen (k := .mul) (f := IS_MULMOD) (.inl rfl) ha hb hc (fun h => by cases h)
      exact ⟨lv, nv, o, h1, h2, Nat.cast_injective (R := ℤ) (h3.trans (mulmod_eq a b c).symm)⟩
    · obtain ⟨lv, nv, o, h1, h2, h3⟩ := modular_gen (k := .sub) (f := IS_SUBMOD) (.inl rfl) ha hb hc (fun h => by cases h)
      exact ⟨lv, nv, o, h1, h2, Nat.cast_injective (R := ℤ) (h3.trans (submod_eq a b c).symm)⟩
  obtain ⟨lv, nv, o, h1, h2, rfl⟩ := this
  refine ⟨lv, nv, ?_, h2⟩
  unfold ternaryRows
  rw [h1]; rfl

theorem fp_gen (op : BinaryOp) (hop : op = .addFp254 ∨ op = .mulFp254 ∨ op = .subFp254) {a b : ℕ} (ha : a < 2 ^ 256) (hb : b < 2 ^ 256) :
    ∃ lv nv, ternaryRows op.rowFilter a b bnBase = some [lv, nv] ∧ TwoRows op.rowFilter lv nv a b bnBase (op.result a b) := by
  have : ∃ lv nv o, genModular (flagRow op.rowFilter) (fun _ => 0) op.rowFilter a b bnBase = some (lv, nv) ∧
      TwoRows op.rowFilter lv nv a b bnBase o ∧ o = op.result a b := by
    rcases hop with rfl | rfl | rfl
    · obtain ⟨lv, nv, o, h1, h2, h3⟩ := modular_gen (k := .add) (f := IS_ADDFP254) (.inr rfl) ha hb bnBase_lt (fun _ => rfl)
      exact ⟨lv, nv, o, h1, h2, Nat.cast_injective (R := ℤ) (h3.trans (addmod_eq a b bnBase).symm)⟩
    · obtain ⟨lv, nv, o, h1, h2, h3⟩ := modular_gen (k := .mul) (f := IS_MULFP254) (.inr rfl) ha hb bnBase_lt (fun _ => rfl)
      exact ⟨lv, nv, o, h1, h2, Nat.cast_injective (R := ℤ) (h3.trans (mulmod_eq a b bnBase).symm)⟩
    · obtain ⟨lv, nv, o, h1, h2, h3⟩ := modular_gen (k := .sub) (f := IS_SUBFP254) (.inr rfl) ha hb bnBase_lt (fun _ => rfl)
      exact ⟨lv, nv, o, h1, h2, Nat.cast_injective (R := ℤ) (h3.trans (submod_eq a b bnBase).symm)⟩
  obtain ⟨lv, nv, o, h1, h2, rfl⟩ := this
  refine ⟨lv, nv, ?_, h2⟩
  unfold ternaryRows
  rw [h1]; rfl

end Verif.Stark.Arith
