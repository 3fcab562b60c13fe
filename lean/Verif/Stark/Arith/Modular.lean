import Verif.Stark.Arith.Mul

/-! The two row operations: ADDMOD, MULMOD, SUBMOD, their FP254 variants, DIV, MOD and SHR; and SHL.
`evm_arithmetization/src/arithmetic/{modular,divmod,shift}.rs`. -/

namespace Verif.Stark.Arith

open Finset

variable {R : Type} [CommRing R]

/-- `check_reduced`. `modular.rs:382-414`. -/
def checkReduced (lv nv : Row R) (filter : R) (output modulus : Limbs R) (modIsZero : R) : List (Constr R) :=
  let isLessThan : Limbs R := fun i => if i = 0 then 1 - modIsZero * (lv IS_DIV + lv IS_SHR) else 0
  evalAddcy filter modulus (reg nv MODULAR_OUT_AUX_RED) output isLessThan true

/-- The coefficients of `s(x)`. `modular.rs:490-500`. -/
def modularAux (nv : Row R) : Limbs R := fun i =>
  if i < 2 * nLimbs - 1 then nv (MODULAR_AUX_INPUT_LO + i) - 1048576 + 65536 * nv (MODULAR_AUX_INPUT_HI + i) else 0

/-- `modular_constr_poly`: the constraints it yields and the polynomial `c(x) + q(x) m(x) + (x - β) s(x)` it returns.
`modular.rs:427-495`. -/
def modularConstrPoly (lv nv : Row R) (filter : R) (output modulus quot : Limbs R) : List (Constr R) × Limbs R :=
  let modIsZero := nv MODULAR_MOD_IS_ZERO
  let limbSum := ((List.range nLimbs).map modulus).sum
  let modulus' := addAt modulus 0 modIsZero
  let divDenomIsZero := nv MODULAR_DIV_DENOM_IS_ZERO
  let prod := polMul (2 * nLimbs) nLimbs quot modulus'
  ([⟨.transition, filter * (modIsZero * modIsZero - modIsZero)⟩,
    ⟨.transition, filter * limbSum * modIsZero⟩,
    ⟨.transition, filter * (modIsZero * (lv IS_DIV + lv IS_SHR) - divDenomIsZero)⟩] ++
   checkReduced lv nv filter (addAt output 0 divDenomIsZero) modulus' modIsZero ++
   (List.range (nLimbs - 1)).map (fun i => ⟨.transition, filter * prod (2 * nLimbs + i)⟩),
   polAdd (2 * nLimbs) (polAdd nLimbs prod output) (polAdjoinRoot (modularAux nv) 65536))

/-- The quotient of a subtraction with its offset undone. `modular.rs:530-539`. -/
def subQuot (quot : Limbs R) : Limbs R := fun i =>
  if i < nLimbs then quot i - 65535 * quot nLimbs else if i = nLimbs then 0 else quot i

/-- `submod_constr_poly`. `modular.rs:510-536`. -/
def submodConstrPoly (lv nv : Row R) (filter : R) (output modulus quot : Limbs R) : List (Constr R) × Limbs R :=
  let sign := quot nLimbs
  let m := modularConstrPoly lv nv filter output modulus (subQuot quot)
  (⟨.always, filter * sign * (sign - 1)⟩ :: (List.range nLimbs).map (fun i => ⟨.always, filter * subQuot quot (nLimbs + i)⟩) ++ m.1, m.2)

/-- `bn254_modulus_limbs` of `BN_BASE`. `modular.rs:130-143`, `extension_tower.rs:25-30`. -/
def bn254Limbs : List ℕ :=
  [64839, 55420, 35862, 15392, 51853, 26737, 27281, 38785, 22621, 33153, 17846, 47184, 41001, 57649, 20082, 12388]

/-- `modular::eval_packed`. `modular.rs:539-613`. -/
def evalModular (lv nv : Row R) : List (Constr R) :=
  let bn254Filter := lv IS_ADDFP254 + lv IS_MULFP254 + lv IS_SUBFP254
  let filter := lv IS_ADDMOD + lv IS_SUBMOD + lv IS_MULMOD + bn254Filter
  let modulus := reg lv INPUT_REGISTER_2
  let output := reg lv OUTPUT_REGISTER
  let quo := reg lv MODULAR_QUO_INPUT
  let addFilter := lv IS_ADDMOD + lv IS_ADDFP254
  let subFilter := lv IS_SUBMOD + lv IS_SUBFP254
  let mulFilter := lv IS_MULMOD + lv IS_MULFP254
  let sub := submodConstrPoly lv nv subFilter output modulus quo
  let addMul := modularConstrPoly lv nv (addFilter + mulFilter) output modulus quo
  let in0 := reg lv INPUT_REGISTER_0
  let in1 := reg lv INPUT_REGISTER_1
  let addInput := zeroExtend nLimbs (fun i => in0 i + in1 i)
  let subInput := zeroExtend nLimbs (fun i => in0 i - in1 i)
  let mulInput := polMul nLimbs nLimbs in0 in1
  [⟨.last, filter⟩] ++
  (List.range nLimbs).map (fun i => ⟨.transition, bn254Filter * (modulus i - ((bn254Limbs.getD i 0 : ℕ) : R))⟩) ++
  sub.1 ++ addMul.1 ++
  (List.range (2 * nLimbs)).map (fun i => ⟨.transition, addFilter * polSub (2 * nLimbs - 1) addMul.2 addInput i⟩) ++
  (List.range (2 * nLimbs)).map (fun i => ⟨.transition, subFilter * polSub (2 * nLimbs - 1) sub.2 subInput i⟩) ++
  (List.range (2 * nLimbs)).map (fun i => ⟨.transition, mulFilter * polSub (2 * nLimbs - 1) addMul.2 mulInput i⟩)

/-- `eval_packed_divmod_helper`; the ranges are given by their first columns. `divmod.rs:86-118`. -/
def evalDivmodHelper (lv nv : Row R) (filter : R) (num den quo rem : ℕ) : List (Constr R) :=
  let m := modularConstrPoly lv nv filter (reg lv rem) (reg lv den) (zeroExtend nLimbs (reg lv quo))
  [⟨.last, filter⟩] ++ m.1 ++
  (List.range (2 * nLimbs)).map (fun i => ⟨.transition, filter * polSub nLimbs m.2 (reg lv num) i⟩)

/-- `divmod::eval_packed`. `divmod.rs:120-145`. -/
def evalDivmod (lv nv : Row R) : List (Constr R) :=
  evalDivmodHelper lv nv (lv IS_DIV) INPUT_REGISTER_0 INPUT_REGISTER_1 OUTPUT_REGISTER AUX_INPUT_REGISTER_0 ++
  evalDivmodHelper lv nv (lv IS_MOD) INPUT_REGISTER_0 INPUT_REGISTER_1 AUX_INPUT_REGISTER_0 OUTPUT_REGISTER

/-- `shift::eval_packed_generic`. `shift.rs:121-128`. -/
def evalShift (lv nv : Row R) : List (Constr R) :=
  evalMulWith lv (lv IS_SHL) (reg lv INPUT_REGISTER_1) (reg lv INPUT_REGISTER_2) ++
  evalDivmodHelper lv nv (lv IS_SHR) INPUT_REGISTER_1 INPUT_REGISTER_2 OUTPUT_REGISTER AUX_INPUT_REGISTER_0

/-! ### Soundness -/

/-- The constraints that apply to a row that is neither first nor last hold. -/
def Holds (cs : List (Constr F)) : Prop := ∀ c ∈ cs, c.on = .always ∨ c.on = .transition → c.val = 0

theorem Holds.append {a b : List (Constr F)} : Holds (a ++ b) ↔ Holds a ∧ Holds b := by
  unfold Holds
  simp only [List.mem_append]
  exact ⟨fun h => ⟨fun c hc => h c (.inl hc), fun c hc => h c (.inr hc)⟩, fun h c hc => hc.elim (h.1 c) (h.2 c)⟩

theorem Holds.map {on : When} (hon : on = .always ∨ on = .transition) {n : ℕ} {f : ℕ → F} :
    Holds ((List.range n).map (fun i => ⟨on, f i⟩)) ↔ ∀ i < n, f i = 0 := by
  unfold Holds
  simp only [List.mem_map, List.mem_range, forall_exists_index, and_imp]
  constructor
  · intro h i hi; exact h _ i hi rfl hon
  · rintro h c i hi rfl _; exact h i hi

theorem evalAddcy_on {x y z g : Limbs R} {filter : R} {two : Bool} {c : Constr R} (h : c ∈ evalAddcy filter x y z g two) :
    c.on = .always ∨ c.on = .transition := by
  cases two <;> simp only [evalAddcy, List.mem_append, List.mem_map, List.mem_singleton, if_true, Bool.false_eq_true, if_false,
    List.not_mem_nil, or_false] at h
  · rcases h with ((⟨i, -, rfl⟩ | rfl) | rfl) | ⟨i, -, rfl⟩ <;> exact .inl rfl
  · rcases h with (⟨i, -, rfl⟩ | rfl) | ⟨i, -, rfl⟩ <;> exact .inr rfl

theorem ev_addAt {S : Type} [CommRing S] (x : S) {n : ℕ} (hn : 0 < n) (a : Limbs S) (v : S) : ev x n (addAt a 0 v) = ev x n a + v := by
  have : ∀ i < n, addAt a 0 v i = a i + (if 0 = i then v else 0) := fun i _ => addAt_eq a 0 v i
  rw [ev_congr x this, ev_add]
  congr 1
  unfold ev
  rw [sum_eq_single 0] <;> simp
  · intro i hi h0 h; exact absurd h.symm h0
  · omega

theorem addAt_cast {a : Limbs F} {A : Limbs ℤ} {n : ℕ} (h : ∀ i < n, a i = (A i : F)) {v : F} {V : ℤ} (hv : v = (V : F)) :
    ∀ i < n, addAt a 0 v i = ((addAt A 0 V i : ℤ) : F) := by
  intro i hi
  rw [addAt_eq, addAt_eq, h i hi, hv]; split <;> push_cast <;> rfl

theorem sum_range_map {S : Type} [AddCommMonoid S] (f : ℕ → S) (n : ℕ) : ((List.range n).map f).sum = ∑ i ∈ range n, f i := by
  induction n with
  | zero => simp
  | succ n ih => rw [List.range_succ, List.map_append, List.sum_append, sum_range_succ, ih]; simp

theorem bit_of {x : F} (h : x * x - x = 0) : ∃ z : ℤ, (z = 0 ∨ z = 1) ∧ x = (z : F) := by
  have : x * (x - 1) = 0 := by linear_combination h
  rcases mul_eq_zero.1 this with h | h
  · exact ⟨0, .inl rfl, by simpa using h⟩
  · exact ⟨1, .inr rfl, by rw [sub_eq_zero.1 h]; simp⟩

theorem P_eq : (P : ℤ) = 18446744069414584321 := rfl

/-- The limbs are zero if their sum is. -/
theorem limbs_zero {modulus : Limbs F} {M : Limbs ℤ} (hM : ∀ i < nLimbs, modulus i = (M i : F)) (bM : ∀ i < nLimbs, 0 ≤ M i ∧ M i < 65536)
    (h : ((List.range nLimbs).map modulus).sum = 0) : ev (65536 : ℤ) nLimbs M = 0 := by
  have hP := P_eq
  rw [sum_range_map, show (∑ i ∈ range nLimbs, modulus i) = ((∑ i ∈ range nLimbs, M i : ℤ) : F) by
    rw [Int.cast_sum]; exact sum_congr rfl (fun i hi => hM i (mem_range.1 hi))] at h
  have hs0 : (∑ i ∈ range nLimbs, M i) = 0 := by
    refine lift_zero h ?_
    rw [abs_lt]
    have h0 : 0 ≤ ∑ i ∈ range nLimbs, M i := sum_nonneg (fun i hi => (bM i (mem_range.1 hi)).1)
    have h1 : ∑ i ∈ range nLimbs, M i ≤ 16 * 65536 :=
      (sum_le_card_nsmul _ _ 65536 (fun i hi => (bM i (mem_range.1 hi)).2.le)).trans (by simp)
    constructor <;> omega
  have : ∀ i < nLimbs, M i = 0 := fun i hi =>
    (sum_eq_zero_iff_of_nonneg (fun i hi => (bM i (mem_range.1 hi)).1)).1 hs0 i (mem_range.2 hi)
  rw [ev_congr (b := fun _ => 0) _ this]; simp [ev]

theorem bump_bound {M : Limbs ℤ} (bM : ∀ i < nLimbs, 0 ≤ M i ∧ M i < 65536) {z : ℤ} (hz : z = 0 ∨ z = 1) :
    ∀ i < nLimbs, 0 ≤ addAt M 0 z i ∧ addAt M 0 z i ≤ 65536 := by
  intro i hi
  have := bM i hi
  rw [addAt_eq]; split <;> rcases hz with rfl | rfl <;> constructor <;> omega

/-- The output is smaller than the modulus, unless it is the remainder of a division by zero. -/
theorem reduced_sound {lv nv : Row F} (hnv : Ranged nv) {output modulus : Limbs F} {O M : Limbs ℤ} {d z : ℤ}
    (hdiv : lv IS_DIV + lv IS_SHR = (d : F)) (hz : z = 0 ∨ z = 1) (hzf : nv MODULAR_MOD_IS_ZERO = (z : F))
    (hdz : nv MODULAR_DIV_DENOM_IS_ZERO = ((z * d : ℤ) : F))
    (hO : ∀ i < nLimbs, output i = (O i : F)) (hM : ∀ i < nLimbs, modulus i = (M i : F))
    (bO : ∀ i < nLimbs, 0 ≤ O i ∧ O i < 65536) (bM : ∀ i < nLimbs, 0 ≤ M i ∧ M i < 65536)
    (h : Holds (checkReduced lv nv 1 (addAt output 0 (nv MODULAR_DIV_DENOM_IS_ZERO)) (addAt modulus 0 (nv MODULAR_MOD_IS_ZERO))
      (nv MODULAR_MOD_IS_ZERO))) (hzd : z * d = 0) :
    ev (65536 : ℤ) nLimbs O < ev (65536 : ℤ) nLimbs M + z := by
  have bR : ∀ i < nLimbs, 0 ≤ limbs nv MODULAR_OUT_AUX_RED i ∧ limbs nv MODULAR_OUT_AUX_RED i < (base : ℤ) := by
    intro i hi
    refine limbs_bound hnv ?_ ?_ <;> simp only [START_SHARED_COLS, NUM_SHARED_COLS, MODULAR_OUT_AUX_RED, nLimbs] at * <;> omega
  have hzd' : z * d = 0 ∨ z * d = 1 := .inl hzd
  unfold checkReduced at h
  obtain ⟨c, hc01, hg, -, hs⟩ := addcy_sound (addAt_cast hM hzf) (fun i _ => limbs_cast nv MODULAR_OUT_AUX_RED i) (addAt_cast hO hdz)
    (bump_bound bM hz) (fun i hi => ⟨(bR i hi).1, (bR i hi).2.le⟩) (bump_bound bO hzd')
    (fun c hc => h c hc (evalAddcy_on hc))
  have hcz : c = 1 := by
    rw [if_pos rfl, hzf, hdiv, ← Int.cast_mul, hzd] at hg
    have : (c : F) = ((1 : ℤ) : F) := by rw [← hg]; push_cast; ring
    refine lift_eq this ?_
    rw [P_eq, abs_lt]; rcases hc01 with rfl | rfl <;> constructor <;> norm_num
  rw [ev_addAt _ (by decide), ev_addAt _ (by decide), hzd, hcz] at hs
  have hR := (ev_lt bR).2
  have e : ((base : ℕ) : ℤ) = 65536 := rfl
  rw [e] at hs hR
  generalize (65536 : ℤ) ^ nLimbs = k at hs hR
  omega

theorem modularAux_cast {nv : Row F} (hnv : Ranged nv) : ∃ A : Limbs ℤ, (modularAux nv = fun i => Int.castRingHom F (A i)) ∧ A 31 = 0 ∧
    ∀ i, |polAdjoinRoot A 65536 i| ≤ 4294967296 + 65536 * 4294967296 := by
  let A : Limbs ℤ := fun i => if i < 2 * nLimbs - 1 then
    limbs nv MODULAR_AUX_INPUT_LO i - 1048576 + 65536 * limbs nv MODULAR_AUX_INPUT_HI i else 0
  refine ⟨A, castF_eq A _ (fun i => ?_), if_neg (by decide), fun i => ?_⟩
  · have e0 := limbs_cast nv MODULAR_AUX_INPUT_LO i
    have e1 := limbs_cast nv MODULAR_AUX_INPUT_HI i
    unfold reg at e0 e1
    simp only [A, modularAux, e0, e1]; split <;> push_cast <;> rfl
  · have bA : ∀ i, |A i| ≤ 4294967296 := by
      intro i
      simp only [A]
      split
      · rename_i hi
        have h1 : 0 ≤ limbs nv MODULAR_AUX_INPUT_LO i ∧ limbs nv MODULAR_AUX_INPUT_LO i < (base : ℤ) := by
          refine limbs_bound hnv ?_ ?_ <;> simp only [START_SHARED_COLS, NUM_SHARED_COLS, MODULAR_AUX_INPUT_LO, nLimbs] at * <;> omega
        have h2 : 0 ≤ limbs nv MODULAR_AUX_INPUT_HI i ∧ limbs nv MODULAR_AUX_INPUT_HI i < (base : ℤ) := by
          refine limbs_bound hnv ?_ ?_ <;> simp only [START_SHARED_COLS, NUM_SHARED_COLS, MODULAR_AUX_INPUT_HI, nLimbs] at * <;> omega
        have e : ((base : ℕ) : ℤ) = 65536 := rfl
        rw [e] at h1 h2
        rw [abs_le]; constructor <;> omega
      · norm_num
    unfold polAdjoinRoot
    have a1 := bA i
    have a2 := bA (i - 1)
    rw [abs_le] at a1 a2 ⊢
    split
    · rename_i h0; subst h0; constructor <;> omega
    · constructor <;> omega

/-- The polynomial identity, read over the integers and evaluated at `2^16`. -/
theorem poly_sound {nv : Row F} (hnv : Ranged nv) {output modulus quot input : Limbs F} {O M Q I : Limbs ℤ}
    (hO : ∀ i < nLimbs, output i = (O i : F)) (hM : ∀ i < nLimbs, modulus i = (M i : F)) (hQ : ∀ i < 2 * nLimbs, quot i = (Q i : F))
    (hI : ∀ i < 2 * nLimbs, input i = (I i : F))
    (bO : ∀ i < nLimbs, 0 ≤ O i ∧ O i < 65536) (bM : ∀ i < nLimbs, 0 ≤ M i ∧ M i ≤ 65536) (bQ : ∀ i < 2 * nLimbs, |Q i| ≤ 65536)
    (bI : ∀ i < 2 * nLimbs, |I i| ≤ 1099511627776)
    (h : ∀ i < nLimbs - 1, polMul (2 * nLimbs) nLimbs quot modulus (2 * nLimbs + i) = 0)
    (hp : ∀ i < 2 * nLimbs, polAdd (2 * nLimbs) (polAdd nLimbs (polMul (2 * nLimbs) nLimbs quot modulus) output)
      (polAdjoinRoot (modularAux nv) 65536) i = input i) :
    ev (65536 : ℤ) (2 * nLimbs) I = ev (65536 : ℤ) nLimbs O + ev (65536 : ℤ) (2 * nLimbs) Q * ev (65536 : ℤ) nLimbs M := by
  have hP := P_eq
  have hprod : ∀ k, polMul (2 * nLimbs) nLimbs quot modulus k = ((polMul (2 * nLimbs) nLimbs Q M k : ℤ) : F) := by
    intro k
    rw [polMul_eq, polMul_eq, Int.cast_sum]
    refine sum_congr rfl (fun i hi => ?_)
    rw [Int.cast_sum]
    refine sum_congr rfl (fun j hj => ?_)
    rw [hQ i (mem_range.1 hi), hM j (mem_range.1 hj)]
    split
    · rw [Int.cast_mul]
    · rw [Int.cast_zero]
  have bprod : ∀ k, |polMul (2 * nLimbs) nLimbs Q M k| ≤ 2199023255552 := by
    intro k
    refine (abs_polMul_le bQ (fun i hi => ?_) (B := 65536) (by norm_num) (by norm_num) k).trans (by norm_num)
    rw [abs_of_nonneg (bM i hi).1]; exact (bM i hi).2
  have hhigh : ∀ i < nLimbs - 1, polMul (2 * nLimbs) nLimbs Q M (2 * nLimbs + i) = 0 := by
    intro i hi
    refine lift_zero ((hprod _).symm.trans (h i hi)) ?_
    exact lt_of_le_of_lt (bprod _) (by rw [hP]; norm_num)
  obtain ⟨A, hA, hA31, bad⟩ := modularAux_cast hnv
  have hcoef : ∀ i < 2 * nLimbs, polMul (2 * nLimbs) nLimbs Q M i + zeroExtend nLimbs O i + polAdjoinRoot A 65536 i = I i := by
    intro i hi
    have hpi := hp i hi
    rw [hI i hi] at hpi
    unfold polAdd at hpi
    rw [if_pos hi] at hpi
    have e : (65536 : F) = Int.castRingHom F 65536 := by simp
    rw [hprod, hA, e, map_adjoin] at hpi
    have h1 := bprod i
    have h2 := bad i
    have h4 := bI i hi
    rw [abs_le] at h1 h2 h4
    unfold zeroExtend
    by_cases hi16 : i < nLimbs
    · rw [if_pos hi16] at hpi ⊢
      rw [hO i hi16] at hpi
      have := bO i hi16
      refine lift_eq ?_ ?_
      · rw [← hpi, Int.cast_add, Int.cast_add]; rfl
      · rw [abs_lt, hP]; constructor <;> omega
    · rw [if_neg hi16] at hpi ⊢
      refine lift_eq ?_ ?_
      · rw [← hpi, Int.cast_add, Int.cast_add, Int.cast_zero, add_zero]; rfl
      · rw [abs_lt, hP]; constructor <;> omega
  rw [← ev_congr _ hcoef, ev_add, ev_add, ev_zeroExtend _ (by decide), show 2 * nLimbs = 31 + 1 from rfl, ev_adjoin, hA31,
    ← ev_polMul (65536 : ℤ) (l := 31 + 1 + 15) (by decide), ev_split _ (31 + 1) 15]
  have : ev (65536 : ℤ) 15 (fun i => polMul (31 + 1) nLimbs Q M (31 + 1 + i)) = 0 := by
    exact (ev_congr (n := 15) (65536 : ℤ) (b := fun _ => 0) (fun i hi => hhigh i hi)).trans (by simp [ev])
  rw [this]
  ring

theorem modular_sound {lv nv : Row F} (hnv : Ranged nv) {output modulus quot input : Limbs F} {O M Q I : Limbs ℤ} {d : ℤ}
    (hdiv : lv IS_DIV + lv IS_SHR = (d : F))
    (hO : ∀ i < nLimbs, output i = (O i : F)) (hM : ∀ i < nLimbs, modulus i = (M i : F)) (hQ : ∀ i < 2 * nLimbs, quot i = (Q i : F))
    (hI : ∀ i < 2 * nLimbs, input i = (I i : F))
    (bO : ∀ i < nLimbs, 0 ≤ O i ∧ O i < 65536) (bM : ∀ i < nLimbs, 0 ≤ M i ∧ M i < 65536) (bQ : ∀ i < 2 * nLimbs, |Q i| ≤ 65536)
    (bI : ∀ i < 2 * nLimbs, |I i| ≤ 1099511627776)
    (h : Holds (modularConstrPoly lv nv 1 output modulus quot).1)
    (hp : ∀ i < 2 * nLimbs, (modularConstrPoly lv nv 1 output modulus quot).2 i = input i) :
    ∃ z : ℤ, (z = 0 ∨ z = 1) ∧ (z = 1 → ev (65536 : ℤ) nLimbs M = 0) ∧
      ev (65536 : ℤ) (2 * nLimbs) I = ev (65536 : ℤ) nLimbs O + ev (65536 : ℤ) (2 * nLimbs) Q * (ev (65536 : ℤ) nLimbs M + z) ∧
      (z * d = 0 → ev (65536 : ℤ) nLimbs O < ev (65536 : ℤ) nLimbs M + z) := by
  unfold modularConstrPoly at h hp
  simp only at h hp
  rw [Holds.append, Holds.append] at h
  obtain ⟨⟨h1, h2⟩, h3⟩ := h
  rw [Holds.map (.inr rfl)] at h3
  have ha := h1 _ (List.mem_cons_self ..) (.inr rfl)
  have hb := h1 _ (List.mem_cons_of_mem _ (List.mem_cons_self ..)) (.inr rfl)
  have hc := h1 _ (List.mem_cons_of_mem _ (List.mem_cons_of_mem _ (List.mem_cons_self ..))) (.inr rfl)
  simp only [one_mul] at ha hb hc h3
  obtain ⟨z, hz, hzf⟩ := bit_of ha
  have hdz : nv MODULAR_DIV_DENOM_IS_ZERO = ((z * d : ℤ) : F) := by
    rw [hzf, hdiv] at hc; rw [Int.cast_mul]; exact (sub_eq_zero.1 hc).symm
  refine ⟨z, hz, fun h1 => ?_, ?_, ?_⟩
  · rw [hzf, h1, Int.cast_one, mul_one] at hb
    exact limbs_zero hM bM hb
  · rw [← ev_addAt (65536 : ℤ) (show 0 < nLimbs by decide) M z]
    exact poly_sound hnv hO (addAt_cast hM hzf) hQ hI bO (bump_bound bM hz) bQ bI h3 hp
  · exact reduced_sound hnv hdiv hz hzf hdz hO hM bO bM h2

end Verif.Stark.Arith
