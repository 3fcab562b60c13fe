import Verif.Stark.Arith.Table

/-! The logic table: AND, OR and XOR. `evm_arithmetization/src/logic.rs`. -/

namespace Verif.Stark.Logic

open Finset Verif.Stark.Arith

variable {R : Type} [CommRing R]

/-- The columns. `logic.rs:41-63`. -/
abbrev IS_AND : ℕ := 0
abbrev IS_OR : ℕ := 1
abbrev IS_XOR : ℕ := 2
abbrev INPUT0 : ℕ := 3
abbrev INPUT1 : ℕ := 259
abbrev RESULT : ℕ := 515

/-- `limb_from_bits_le` of the `k`-th chunk of thirty-two bits; also `Column::le_bits`. `logic.rs:93-105, 273-275`, `util.rs:35-44`. -/
def chunk (lv : Row R) (start k : ℕ) : R := ((List.range 32).map (fun i => lv (start + 32 * k + i) * 2 ^ i)).sum

/-- `LogicStark::eval_packed_generic`. `logic.rs:249-303`. -/
def evalLogic (lv _nv : Row R) : List (Constr R) :=
  let all := lv IS_AND + lv IS_OR + lv IS_XOR
  let sumCoeff := lv IS_OR + lv IS_XOR
  let andCoeff := lv IS_AND - lv IS_OR - lv IS_XOR * 2
  [⟨.always, lv IS_AND * (lv IS_AND - 1)⟩, ⟨.always, lv IS_OR * (lv IS_OR - 1)⟩, ⟨.always, lv IS_XOR * (lv IS_XOR - 1)⟩,
   ⟨.always, all * (all - 1)⟩] ++
  (List.range 256).map (fun i => ⟨.always, lv (INPUT0 + i) * (lv (INPUT0 + i) - 1)⟩) ++
  (List.range 256).map (fun i => ⟨.always, lv (INPUT1 + i) * (lv (INPUT1 + i) - 1)⟩) ++
  (List.range 8).map (fun k => ⟨.always, lv (RESULT + k) - (sumCoeff * (chunk lv INPUT0 k + chunk lv INPUT1 k) +
    andCoeff * ((List.range 32).map (fun i => lv (INPUT0 + 32 * k + i) * lv (INPUT1 + 32 * k + i) * 2 ^ i)).sum)⟩)

/-- The table exports `op a b = out` to the CPU table. `ctl_data`, `ctl_filter`, `logic.rs:84-108, 111-113`. -/
def Exports (n : ℕ) (T : ℕ → Row F) (op a b out : ℕ) : Prop :=
  ∃ i < n, T i IS_AND + T i IS_OR + T i IS_XOR = 1 ∧ T i IS_AND * 0x16 + T i IS_OR * 0x17 + T i IS_XOR * 0x18 = (op : F) ∧ op < 256 ∧
    a < 2 ^ 256 ∧ b < 2 ^ 256 ∧ out < 2 ^ 256 ∧
    (∀ k < 8, chunk (T i) INPUT0 k = ((a / 2 ^ (32 * k) % 2 ^ 32 : ℕ) : F)) ∧
    (∀ k < 8, chunk (T i) INPUT1 k = ((b / 2 ^ (32 * k) % 2 ^ 32 : ℕ) : F)) ∧
    (∀ k < 8, T i (RESULT + k) = ((out / 2 ^ (32 * k) % 2 ^ 32 : ℕ) : F))

/-! ### Numbers as sums of bits -/

/-- The number with the given bits. -/
def ofBits (x : ℕ → ℕ) (n : ℕ) : ℕ := ∑ i ∈ range n, x i * 2 ^ i

theorem ofBits_lt {x : ℕ → ℕ} {n : ℕ} (h : ∀ i < n, x i < 2) : ofBits x n < 2 ^ n := by
  unfold ofBits
  induction n with
  | zero => simp
  | succ n ih =>
    rw [sum_range_succ, pow_succ]
    have h1 := ih (fun i hi => h i (by omega))
    have h2 := Nat.mul_le_mul_right (2 ^ n) (show x n ≤ 1 by have := h n (by omega); omega)
    omega

theorem testBit_ofBits {x : ℕ → ℕ} {n : ℕ} (h : ∀ i < n, x i < 2) (j : ℕ) : (ofBits x n).testBit j = (decide (j < n) && decide (x j = 1)) := by
  rw [Nat.testBit_eq_decide_div_mod_eq]
  by_cases hj : j < n
  · have := digit_sum (B := 2) (by decide) j n x h hj
    unfold ofBits; rw [this, decide_eq_true hj, Bool.true_and]
  · have hlt : ofBits x n < 2 ^ j := lt_of_lt_of_le (ofBits_lt h) (Nat.pow_le_pow_right (by decide) (by omega))
    rw [Nat.div_eq_of_lt hlt, decide_eq_false hj, Bool.false_and]
    rfl

theorem bit_cases {m : ℕ} (h : m < 2) : m = 0 ∨ m = 1 := by omega

theorem land_ofBits {x y : ℕ → ℕ} {n : ℕ} (hx : ∀ i < n, x i < 2) (hy : ∀ i < n, y i < 2) :
    ofBits x n &&& ofBits y n = ofBits (fun i => x i * y i) n := by
  have hz : ∀ i < n, x i * y i < 2 := by
    intro i hi
    rcases bit_cases (hx i hi) with h | h <;> rcases bit_cases (hy i hi) with h' | h' <;> rw [h, h'] <;> decide
  refine Nat.eq_of_testBit_eq (fun j => ?_)
  rw [Nat.testBit_and, testBit_ofBits hx, testBit_ofBits hy, testBit_ofBits hz]
  by_cases hj : j < n
  · rcases bit_cases (hx j hj) with h | h <;> rcases bit_cases (hy j hj) with h' | h' <;> simp [h, h']
  · simp [hj]

theorem lor_ofBits {x y : ℕ → ℕ} {n : ℕ} (hx : ∀ i < n, x i < 2) (hy : ∀ i < n, y i < 2) :
    ofBits x n ||| ofBits y n = ofBits (fun i => x i + y i - x i * y i) n := by
  have hz : ∀ i < n, x i + y i - x i * y i < 2 := by
    intro i hi
    rcases bit_cases (hx i hi) with h | h <;> rcases bit_cases (hy i hi) with h' | h' <;> rw [h, h'] <;> decide
  refine Nat.eq_of_testBit_eq (fun j => ?_)
  rw [Nat.testBit_or, testBit_ofBits hx, testBit_ofBits hy, testBit_ofBits hz]
  by_cases hj : j < n
  · rcases bit_cases (hx j hj) with h | h <;> rcases bit_cases (hy j hj) with h' | h' <;> simp [h, h']
  · simp [hj]

theorem xor_ofBits {x y : ℕ → ℕ} {n : ℕ} (hx : ∀ i < n, x i < 2) (hy : ∀ i < n, y i < 2) :
    ofBits x n ^^^ ofBits y n = ofBits (fun i => x i + y i - 2 * (x i * y i)) n := by
  have hz : ∀ i < n, x i + y i - 2 * (x i * y i) < 2 := by
    intro i hi
    rcases bit_cases (hx i hi) with h | h <;> rcases bit_cases (hy i hi) with h' | h' <;> rw [h, h'] <;> decide
  refine Nat.eq_of_testBit_eq (fun j => ?_)
  rw [Nat.testBit_xor, testBit_ofBits hx, testBit_ofBits hy, testBit_ofBits hz]
  by_cases hj : j < n
  · rcases bit_cases (hx j hj) with h | h <;> rcases bit_cases (hy j hj) with h' | h' <;> simp [h, h']
  · simp [hj]

/-- The words of a number given by its bits. -/
theorem word_ofBits {x : ℕ → ℕ} (h : ∀ i < 256, x i < 2) {k : ℕ} (hk : k < 8) :
    ofBits x 256 / 2 ^ (32 * k) % 2 ^ 32 = ofBits (fun i => x (32 * k + i)) 32 := by
  have h32 : ∀ i < 32, x (32 * k + i) < 2 := fun i hi => h _ (by omega)
  refine Nat.eq_of_testBit_eq (fun j => ?_)
  rw [Nat.testBit_mod_two_pow, Nat.testBit_div_two_pow, testBit_ofBits h, testBit_ofBits h32]
  by_cases hj : j < 32
  · have : j + 32 * k < 256 := by omega
    simp [hj, this, Nat.add_comm]
  · simp [hj]

/-- Numbers of 256 bits with the same words are equal. -/
theorem word_ext {a b : ℕ} (ha : a < 2 ^ 256) (hb : b < 2 ^ 256) (h : ∀ k < 8, a / 2 ^ (32 * k) % 2 ^ 32 = b / 2 ^ (32 * k) % 2 ^ 32) : a = b := by
  refine Nat.eq_of_testBit_eq (fun j => ?_)
  by_cases hj : j < 256
  · have := congrArg (fun m => Nat.testBit m (j % 32)) (h (j / 32) (by omega))
    simp only [Nat.testBit_mod_two_pow, Nat.testBit_div_two_pow] at this
    have h1 : j % 32 < 32 := Nat.mod_lt _ (by decide)
    have h2 : j % 32 + 32 * (j / 32) = j := by omega
    simpa [h1, h2] using this
  · rw [Nat.testBit_lt_two_pow (lt_of_lt_of_le ha (Nat.pow_le_pow_right (by decide) (by omega))),
      Nat.testBit_lt_two_pow (lt_of_lt_of_le hb (Nat.pow_le_pow_right (by decide) (by omega)))]

theorem ofBits_cast (x : ℕ → ℕ) (n : ℕ) : ((ofBits x n : ℕ) : F) = ∑ i ∈ range n, (x i : F) * 2 ^ i := by
  unfold ofBits; push_cast; rfl

/-- The result of each operation. (Specification.) -/
def LogicSpec (op a b out : ℕ) : Prop :=
  match op with
  | 0x16 => out = a &&& b
  | 0x17 => out = a ||| b
  | 0x18 => out = a ^^^ b
  | _ => False

/-- C41: every operation the logic table exports is AND, OR or XOR and has the right result. -/
theorem C41_logic {n : ℕ} {T : ℕ → Row F} (h : Satisfies evalLogic n T) {op a b out : ℕ} (he : Exports n T op a b out) : LogicSpec op a b out := by
  obtain ⟨i, hi, hf, hop, hop256, ha, hb, ho, wa, wb, wo⟩ := he
  have hc := h i hi
  have flag : ∀ v : F, v * (v - 1) = 0 → v = 0 ∨ v = 1 := by
    intro v hv
    rcases mul_eq_zero.1 hv with h | h
    · exact .inl h
    · exact .inr (sub_eq_zero.1 h)
  have f0 := flag _ (hc ⟨.always, T i IS_AND * (T i IS_AND - 1)⟩ (by simp [evalLogic]) trivial)
  have f1 := flag _ (hc ⟨.always, T i IS_OR * (T i IS_OR - 1)⟩ (by simp [evalLogic]) trivial)
  have f2 := flag _ (hc ⟨.always, T i IS_XOR * (T i IS_XOR - 1)⟩ (by simp [evalLogic]) trivial)
  have bits0 : ∀ j < 256, T i (INPUT0 + j) = 0 ∨ T i (INPUT0 + j) = 1 := fun j hj =>
    flag _ (hc ⟨.always, T i (INPUT0 + j) * (T i (INPUT0 + j) - 1)⟩
      (by simp only [evalLogic, List.mem_append, List.mem_map]; exact .inl (.inl (.inr ⟨j, List.mem_range.2 hj, rfl⟩))) trivial)
  have bits1 : ∀ j < 256, T i (INPUT1 + j) = 0 ∨ T i (INPUT1 + j) = 1 := fun j hj =>
    flag _ (hc ⟨.always, T i (INPUT1 + j) * (T i (INPUT1 + j) - 1)⟩
      (by simp only [evalLogic, List.mem_append, List.mem_map]; exact .inl (.inr ⟨j, List.mem_range.2 hj, rfl⟩)) trivial)
  have hv1 : (1 : F).val = 1 := by decide +kernel
  have hv0 : (0 : F).val = 0 := by decide +kernel
  obtain ⟨x, hxdef⟩ : ∃ x : ℕ → ℕ, x = fun j => (T i (INPUT0 + j)).val := ⟨_, rfl⟩
  obtain ⟨y, hydef⟩ : ∃ y : ℕ → ℕ, y = fun j => (T i (INPUT1 + j)).val := ⟨_, rfl⟩
  have hx : ∀ j < 256, x j < 2 := by
    intro j hj; rw [hxdef]; dsimp only
    rcases bits0 j hj with e | e <;> rw [e]
    · rw [hv0]; decide
    · rw [hv1]; decide
  have hy : ∀ j < 256, y j < 2 := by
    intro j hj; rw [hydef]; dsimp only
    rcases bits1 j hj with e | e <;> rw [e]
    · rw [hv0]; decide
    · rw [hv1]; decide
  have cx : ∀ j, T i (INPUT0 + j) = (x j : F) := fun j => by rw [hxdef]; exact (val_cast _).symm
  have cy : ∀ j, T i (INPUT1 + j) = (y j : F) := fun j => by rw [hydef]; exact (val_cast _).symm
  have chx : ∀ k, chunk (T i) INPUT0 k = ((ofBits (fun j => x (32 * k + j)) 32 : ℕ) : F) := by
    intro k
    unfold chunk
    rw [sum_range_map, ofBits_cast]
    exact sum_congr rfl (fun j _ => by rw [Nat.add_assoc, cx])
  have chy : ∀ k, chunk (T i) INPUT1 k = ((ofBits (fun j => y (32 * k + j)) 32 : ℕ) : F) := by
    intro k
    unfold chunk
    rw [sum_range_map, ofBits_cast]
    exact sum_congr rfl (fun j _ => by rw [Nat.add_assoc, cy])
  have small : ∀ m : ℕ, m < 2 ^ 32 → m < P := fun m hm => lt_trans hm (by decide)
  have ea : a = ofBits x 256 := by
    refine word_ext ha (ofBits_lt hx) (fun k hk => ?_)
    rw [word_ofBits hx hk]
    refine lift_nat ((wa k hk).symm.trans (chx k)) (small _ (Nat.mod_lt _ (by decide))) (small _ (ofBits_lt (fun j hj => hx _ (by omega))))
  have eb : b = ofBits y 256 := by
    refine word_ext hb (ofBits_lt hy) (fun k hk => ?_)
    rw [word_ofBits hy hk]
    refine lift_nat ((wb k hk).symm.trans (chy k)) (small _ (Nat.mod_lt _ (by decide))) (small _ (ofBits_lt (fun j hj => hy _ (by omega))))
  have hres : ∀ k < 8, T i (RESULT + k) = (T i IS_OR + T i IS_XOR) * (chunk (T i) INPUT0 k + chunk (T i) INPUT1 k) +
      (T i IS_AND - T i IS_OR - T i IS_XOR * 2) * ∑ j ∈ range 32, (x (32 * k + j) : F) * (y (32 * k + j) : F) * 2 ^ j := by
    intro k hk
    have := hc ⟨.always, T i (RESULT + k) - ((T i IS_OR + T i IS_XOR) * (chunk (T i) INPUT0 k + chunk (T i) INPUT1 k) +
      (T i IS_AND - T i IS_OR - T i IS_XOR * 2) *
        ((List.range 32).map (fun j => T i (INPUT0 + 32 * k + j) * T i (INPUT1 + 32 * k + j) * 2 ^ j)).sum)⟩
      (by simp only [evalLogic, List.mem_append, List.mem_map]; exact .inr ⟨k, List.mem_range.2 hk, rfl⟩) trivial
    rw [sum_range_map] at this
    have e := sub_eq_zero.1 this
    have hs : ∑ j ∈ range 32, T i (INPUT0 + 32 * k + j) * T i (INPUT1 + 32 * k + j) * 2 ^ j =
        ∑ j ∈ range 32, (x (32 * k + j) : F) * (y (32 * k + j) : F) * 2 ^ j :=
      sum_congr rfl (fun j _ => by rw [Nat.add_assoc INPUT0, Nat.add_assoc INPUT1, cx, cy])
    rw [e, hs]
  /- The result's words are those of the number with bits `z`, whenever `z` has the right image in the field. -/
  have finish : ∀ z : ℕ → ℕ, (∀ j < 256, z j < 2) → (∀ k < 8, T i (RESULT + k) = ∑ j ∈ range 32, (z (32 * k + j) : F) * 2 ^ j) →
      out = ofBits z 256 := by
    intro z hz hzk
    refine word_ext ho (ofBits_lt hz) (fun k hk => ?_)
    rw [word_ofBits hz hk]
    refine lift_nat ?_ (small _ (Nat.mod_lt _ (by decide))) (small _ (ofBits_lt (fun j hj => hz _ (by omega))))
    rw [← wo k hk, hzk k hk, ofBits_cast]
  have opv : ∀ m : ℕ, m < 256 → (op : F) = (m : F) → op = m := fun m hm e => lift_nat e (small _ (by omega)) (small _ (by omega))
  have one_ne_two : (1 : F) + 1 ≠ 1 := by decide +kernel
  have three_ne : (1 : F) + 1 + 1 ≠ 1 := by decide +kernel
  rw [ea, eb]
  rcases f0 with e0 | e0 <;> rcases f1 with e1 | e1 <;> rcases f2 with e2 | e2 <;> rw [e0, e1, e2] at hf hop <;> simp only [e0, e1, e2] at hres
  · exact absurd hf (by decide +kernel)
  · obtain rfl := opv 0x18 (by decide) (by rw [← hop]; decide +kernel)
    change out = ofBits x 256 ^^^ ofBits y 256
    rw [xor_ofBits hx hy]
    refine finish _ (fun j hj => ?_) (fun k hk => ?_)
    · rcases bit_cases (hx j hj) with h | h <;> rcases bit_cases (hy j hj) with h' | h' <;> rw [h, h'] <;> decide
    · rw [hres k hk, chx, chy, ofBits_cast, ofBits_cast, ← sum_add_distrib, mul_sum, mul_sum, ← sum_add_distrib]
      refine sum_congr rfl (fun j hj => ?_)
      have hj : j < 32 := mem_range.1 hj
      rcases bit_cases (hx (32 * k + j) (by omega)) with h | h <;> rcases bit_cases (hy (32 * k + j) (by omega)) with h' | h' <;>
        rw [h, h'] <;> push_cast <;> ring
  · obtain rfl := opv 0x17 (by decide) (by rw [← hop]; decide +kernel)
    change out = ofBits x 256 ||| ofBits y 256
    rw [lor_ofBits hx hy]
    refine finish _ (fun j hj => ?_) (fun k hk => ?_)
    · rcases bit_cases (hx j hj) with h | h <;> rcases bit_cases (hy j hj) with h' | h' <;> rw [h, h'] <;> decide
    · rw [hres k hk, chx, chy, ofBits_cast, ofBits_cast, ← sum_add_distrib, mul_sum, mul_sum, ← sum_add_distrib]
      refine sum_congr rfl (fun j hj => ?_)
      have hj : j < 32 := mem_range.1 hj
      rcases bit_cases (hx (32 * k + j) (by omega)) with h | h <;> rcases bit_cases (hy (32 * k + j) (by omega)) with h' | h' <;>
        rw [h, h'] <;> push_cast <;> ring
  · exact absurd hf (by decide +kernel)
  · obtain rfl := opv 0x16 (by decide) (by rw [← hop]; decide +kernel)
    change out = ofBits x 256 &&& ofBits y 256
    rw [land_ofBits hx hy]
    refine finish _ (fun j hj => ?_) (fun k hk => ?_)
    · rcases bit_cases (hx j hj) with h | h <;> rcases bit_cases (hy j hj) with h' | h' <;> rw [h, h'] <;> decide
    · rw [hres k hk, chx, chy, ofBits_cast, ofBits_cast, ← sum_add_distrib, mul_sum, mul_sum, ← sum_add_distrib]
      refine sum_congr rfl (fun j hj => ?_)
      have hj : j < 32 := mem_range.1 hj
      rcases bit_cases (hx (32 * k + j) (by omega)) with h | h <;> rcases bit_cases (hy (32 * k + j) (by omega)) with h' | h' <;>
        rw [h, h'] <;> push_cast <;> ring
  · exact absurd hf (by decide +kernel)
  · exact absurd hf (by decide +kernel)
  · exact absurd hf (by decide +kernel)

/-! ### Generation -/

/-- `Op`. `logic.rs:123-127`. -/
inductive Op
  | and | or | xor
  deriving DecidableEq, Repr

/-- `Op::result`. `logic.rs:131-137`. -/
def Op.result : Op → ℕ → ℕ → ℕ
  | .and, a, b => a &&& b
  | .or, a, b => a ||| b
  | .xor, a, b => a ^^^ b

/-- The column of the operator's flag. `logic.rs:172-176`. -/
def Op.column : Op → ℕ
  | .and => IS_AND
  | .or => IS_OR
  | .xor => IS_XOR

/-- `Operation::into_row` of `Operation::new`. `logic.rs:153-161, 165-188`. -/
def intoRow (o : Op) (a b : ℕ) : Row F := fun c =>
  if c < INPUT0 then (if c = o.column then 1 else 0)
  else if c < INPUT1 then ((a.testBit (c - INPUT0)).toNat : F)
  else if c < RESULT then ((b.testBit (c - INPUT1)).toNat : F)
  else ((o.result a b / 2 ^ (32 * (c - RESULT)) % 2 ^ 32 : ℕ) : F)

/-- The smallest power of two that is at least `m`. `usize::next_power_of_two`, `logic.rs:224`. -/
def nextPow (m : ℕ) : ℕ := 2 ^ Nat.clog 2 m

/-- `generate_trace_rows`: the height and the rows. `logic.rs:215-236`. -/
def traceHeight (ops : List (Op × ℕ × ℕ)) (minRows : ℕ) : ℕ := nextPow (max ops.length minRows)

def traceRow (ops : List (Op × ℕ × ℕ)) (i : ℕ) : Row F :=
  match ops[i]? with
  | some (o, a, b) => intoRow o a b
  | none => fun _ => 0

theorem le_traceHeight (ops : List (Op × ℕ × ℕ)) (m : ℕ) : ops.length ≤ traceHeight ops m :=
  le_trans (le_max_left _ m) (Nat.le_pow_clog (by decide) _)

theorem toNat_lt (x : Bool) : x.toNat < 2 := by cases x <;> decide

theorem mod_ofBits (m : ℕ) : m % 2 ^ 32 = ofBits (fun j => (m.testBit j).toNat) 32 := by
  refine Nat.eq_of_testBit_eq (fun j => ?_)
  rw [Nat.testBit_mod_two_pow, testBit_ofBits (fun _ _ => toNat_lt _)]
  cases m.testBit j <;> simp

theorem row_flag (o : Op) (a b : ℕ) {c : ℕ} (h : c < 3) : intoRow o a b c = if c = o.column then 1 else 0 := if_pos h

theorem row_in0 (o : Op) (a b : ℕ) {j : ℕ} (h : j < 256) : intoRow o a b (INPUT0 + j) = ((a.testBit j).toNat : F) := by
  unfold intoRow
  rw [if_neg (by omega), if_pos (by simp only [INPUT0, INPUT1]; omega), Nat.add_sub_cancel_left]

theorem row_in1 (o : Op) (a b : ℕ) {j : ℕ} (h : j < 256) : intoRow o a b (INPUT1 + j) = ((b.testBit j).toNat : F) := by
  unfold intoRow
  rw [if_neg (by simp only [INPUT0, INPUT1]; omega), if_neg (by omega), if_pos (by simp only [RESULT, INPUT1]; omega), Nat.add_sub_cancel_left]

theorem row_result (o : Op) (a b : ℕ) (k : ℕ) : intoRow o a b (RESULT + k) = ((o.result a b / 2 ^ (32 * k) % 2 ^ 32 : ℕ) : F) := by
  unfold intoRow
  rw [if_neg (by simp only [INPUT0, RESULT]; omega), if_neg (by simp only [INPUT1, RESULT]; omega), if_neg (by omega), Nat.add_sub_cancel_left]

theorem word_bits (m k : ℕ) : m / 2 ^ (32 * k) % 2 ^ 32 = ofBits (fun j => (m.testBit (32 * k + j)).toNat) 32 := by
  rw [mod_ofBits]
  congr 1
  funext j
  rw [Nat.testBit_div_two_pow, Nat.add_comm]

theorem row_chunk0 (o : Op) (a b : ℕ) {k : ℕ} (h : k < 8) : chunk (intoRow o a b) INPUT0 k = ((a / 2 ^ (32 * k) % 2 ^ 32 : ℕ) : F) := by
  unfold chunk
  rw [sum_range_map, word_bits, ofBits_cast]
  refine sum_congr rfl (fun j hj => ?_)
  have := mem_range.1 hj
  rw [Nat.add_assoc, row_in0 _ _ _ (by omega)]

theorem row_chunk1 (o : Op) (a b : ℕ) {k : ℕ} (h : k < 8) : chunk (intoRow o a b) INPUT1 k = ((b / 2 ^ (32 * k) % 2 ^ 32 : ℕ) : F) := by
  unfold chunk
  rw [sum_range_map, word_bits, ofBits_cast]
  refine sum_congr rfl (fun j hj => ?_)
  have := mem_range.1 hj
  rw [Nat.add_assoc, row_in1 _ _ _ (by omega)]

theorem bool_zero (x : Bool) : ((x.toNat : ℕ) : F) * ((x.toNat : ℕ) - 1) = 0 := by cases x <;> simp

/-- What an operator does to a bit. -/
def Op.bit : Op → Bool → Bool → Bool
  | .and, x, y => x && y
  | .or, x, y => x || y
  | .xor, x, y => x ^^ y

theorem result_bit (o : Op) (a b j : ℕ) : (o.result a b).testBit j = o.bit (a.testBit j) (b.testBit j) := by
  cases o
  · exact Nat.testBit_and ..
  · exact Nat.testBit_or ..
  · exact Nat.testBit_xor ..

/-- A generated row satisfies every constraint. -/
theorem intoRow_holds (o : Op) (a b : ℕ) (nv : Row F) : ∀ c ∈ evalLogic (intoRow o a b) nv, c.val = 0 := by
  intro c hc
  have fl : ∀ f < 3, intoRow o a b f * (intoRow o a b f - 1) = 0 := by
    intro f hf; rw [row_flag _ _ _ hf]; split <;> simp
  simp only [evalLogic, List.mem_append, List.mem_map, List.mem_cons, List.not_mem_nil, or_false, List.mem_range] at hc
  rcases hc with ((h | ⟨j, hj, rfl⟩) | ⟨j, hj, rfl⟩) | ⟨k, hk, rfl⟩
  · rcases h with rfl | rfl | rfl | rfl
    · exact fl 0 (by decide)
    · exact fl 1 (by decide)
    · exact fl 2 (by decide)
    · dsimp only
      rw [row_flag _ _ _ (by decide), row_flag _ _ _ (by decide), row_flag _ _ _ (by decide)]
      cases o <;> simp [Op.column]
  · dsimp only; rw [row_in0 _ _ _ hj]; exact bool_zero _
  · dsimp only; rw [row_in1 _ _ _ hj]; exact bool_zero _
  · dsimp only
    have hs : ((List.range 32).map (fun j => intoRow o a b (INPUT0 + 32 * k + j) * intoRow o a b (INPUT1 + 32 * k + j) * 2 ^ j)).sum =
        ∑ j ∈ range 32, ((a.testBit (32 * k + j)).toNat : F) * ((b.testBit (32 * k + j)).toNat : F) * 2 ^ j := by
      rw [sum_range_map]
      refine sum_congr rfl (fun j hj => ?_)
      have := mem_range.1 hj
      have hj' : 32 * k + j < 256 := by omega
      rw [Nat.add_assoc INPUT0, Nat.add_assoc INPUT1, row_in0 o a b hj', row_in1 o a b hj']
    rw [hs, row_chunk0 _ _ _ hk, row_chunk1 _ _ _ hk, row_result, word_bits, word_bits, word_bits, ofBits_cast, ofBits_cast, ofBits_cast,
      row_flag _ _ _ (by decide), row_flag _ _ _ (by decide), row_flag _ _ _ (by decide), ← sum_add_distrib, mul_sum, mul_sum, ← sum_add_distrib,
      ← sum_sub_distrib]
    refine sum_eq_zero (fun j _ => ?_)
    rw [result_bit]
    cases o <;> cases a.testBit (32 * k + j) <;> cases b.testBit (32 * k + j) <;> simp [Op.column, Op.bit] <;> ring

theorem zero_holds (nv : Row F) : ∀ c ∈ evalLogic (fun _ => 0) nv, c.val = 0 := by
  intro c hc
  simp only [evalLogic, List.mem_append, List.mem_map, List.mem_cons, List.not_mem_nil, or_false, List.mem_range] at hc
  rcases hc with ((h | ⟨j, hj, rfl⟩) | ⟨j, hj, rfl⟩) | ⟨k, hk, rfl⟩
  · rcases h with rfl | rfl | rfl | rfl <;> simp
  · simp
  · simp
  · simp

/-- The opcode of the operator. -/
def Op.opcode : Op → ℕ
  | .and => 0x16
  | .or => 0x17
  | .xor => 0x18

theorem result_lt (o : Op) {a b : ℕ} (ha : a < 2 ^ 256) (hb : b < 2 ^ 256) : o.result a b < 2 ^ 256 := by
  cases o
  · exact Nat.and_lt_two_pow a hb
  · exact Nat.or_lt_two_pow ha hb
  · exact Nat.xor_lt_two_pow ha hb

/-- C71: the generated logic table satisfies the constraints, whatever the operations, and exports each of them with its result. -/
theorem C71_logic (ops : List (Op × ℕ × ℕ)) (minRows : ℕ) :
    Satisfies evalLogic (traceHeight ops minRows) (traceRow ops) ∧
    ∀ o a b, (o, a, b) ∈ ops → a < 2 ^ 256 → b < 2 ^ 256 →
      Exports (traceHeight ops minRows) (traceRow ops) o.opcode a b (o.result a b) := by
  constructor
  · intro i _ c hc _
    unfold traceRow at hc
    split at hc
    · exact intoRow_holds _ _ _ _ c hc
    · exact zero_holds _ c hc
  · intro o a b h ha hb
    obtain ⟨i, hi, he⟩ := List.getElem_of_mem h
    have hr : traceRow ops i = intoRow o a b := by
      unfold traceRow
      rw [List.getElem?_eq_getElem hi, he]
    refine ⟨i, lt_of_lt_of_le hi (le_traceHeight ops minRows), ?_, ?_, by cases o <;> decide, ha, hb, result_lt o ha hb, ?_, ?_, ?_⟩ <;> rw [hr] <;>
      try rw [row_flag _ _ _ (by decide), row_flag _ _ _ (by decide), row_flag _ _ _ (by decide)]
    · cases o <;> simp [Op.column]
    · cases o <;> simp [Op.column, Op.opcode]
    · intro k hk; exact row_chunk0 _ _ _ hk
    · intro k hk; exact row_chunk1 _ _ _ hk
    · intro k _; exact row_result _ _ _ k

/-- Three operations on 256-bit operands fill a table of four rows. -/
example : traceHeight [(.and, 12, 10), (.or, 2 ^ 255, 5), (.xor, 2 ^ 255 + 7, 2 ^ 255 + 1)] 0 = 4 := by
  have : Nat.clog 2 3 = 2 := by decide +kernel
  simp [traceHeight, nextPow, this]

/-- So the hypotheses of `C41_logic` are met, and it gives the results. -/
example : LogicSpec 0x18 (2 ^ 255 + 7) (2 ^ 255 + 1) 6 :=
  C41_logic (C71_logic [(.and, 12, 10), (.or, 2 ^ 255, 5), (.xor, 2 ^ 255 + 7, 2 ^ 255 + 1)] 0).1
    ((C71_logic [(.and, 12, 10), (.or, 2 ^ 255, 5), (.xor, 2 ^ 255 + 7, 2 ^ 255 + 1)] 0).2 .xor _ _ (by simp) (by decide) (by decide))

end Verif.Stark.Logic
