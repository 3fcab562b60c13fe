import Verif.Stark.Arith.Table
import Mathlib.Data.List.GetD

/-! Concrete tables: padding rows satisfy every constraint, so that a table is accepted as soon as the constraints of its
first rows hold, which the kernel evaluates. -/

namespace Verif.Stark.Arith

open Finset

/-- All constraints are zero. -/
def AllZero {R : Type} [CommRing R] (cs : List (Constr R)) : Prop := ∀ c ∈ cs, c.val = 0

section
variable {R : Type} [CommRing R]

theorem AllZero.append {a b : List (Constr R)} (ha : AllZero a) (hb : AllZero b) : AllZero (a ++ b) := by
  intro c hc
  rcases List.mem_append.1 hc with h | h
  · exact ha c h
  · exact hb c h

theorem AllZero.map {on : When} {n : ℕ} {f : ℕ → R} (h : ∀ i < n, f i = 0) : AllZero ((List.range n).map (fun i => ⟨on, f i⟩)) := by
  intro c hc
  obtain ⟨i, hi, rfl⟩ := List.mem_map.1 hc
  exact h i (List.mem_range.1 hi)

theorem addcy_zero (x y z g : Limbs R) (two : Bool) : AllZero (evalAddcy 0 x y z g two) := by
  unfold evalAddcy
  refine ((AllZero.append (AllZero.append (.map fun i _ => by ring) ?_) ?_).append (.map fun i _ => by ring))
  · cases two
    · intro c hc; simp at hc; rw [hc]
    · intro c hc; simp at hc
  · intro c hc; simp at hc; rw [hc]

theorem modularConstr_zero (lv nv : Row R) (o m q : Limbs R) : AllZero (modularConstrPoly lv nv 0 o m q).1 := by
  unfold modularConstrPoly checkReduced
  refine ((AllZero.append ?_ (addcy_zero _ _ _ _ _)).append (.map fun i _ => by ring))
  intro c hc
  simp only [List.mem_cons, List.not_mem_nil, or_false] at hc
  rcases hc with rfl | rfl | rfl <;> ring

theorem divmodHelper_zero (lv nv : Row R) (n d q r : ℕ) : AllZero (evalDivmodHelper lv nv 0 n d q r) := by
  unfold evalDivmodHelper
  refine (AllZero.append (AllZero.append ?_ (modularConstr_zero _ _ _ _ _)) (.map fun i _ => by ring))
  intro c hc; simp at hc; rw [hc]

/-- The constraints of the operations. -/
def evalOps (lv nv : Row R) : List (Constr R) :=
  evalMul lv ++ evalAddSubLtGt lv ++ evalDivmod lv nv ++ evalModular lv nv ++ evalByte lv ++ evalShift lv nv

theorem evalArith_eq (lv nv : Row R) : evalArith lv nv = evalFlags lv ++ evalCounter lv nv ++ evalOps lv nv := by
  simp [evalArith, evalOps, List.append_assoc]

/-- The same constraints in parts, each with the flags that select it. -/
def parts (lv nv : Row R) : List (List ℕ × List (Constr R)) :=
  [([IS_MUL], evalMul lv),
   ([IS_ADD], evalAddcy (lv IS_ADD) (reg lv INPUT_REGISTER_0) (reg lv INPUT_REGISTER_1) (reg lv OUTPUT_REGISTER) (reg lv AUX_INPUT_REGISTER_0) false),
   ([IS_SUB], evalAddcy (lv IS_SUB) (reg lv INPUT_REGISTER_1) (reg lv OUTPUT_REGISTER) (reg lv INPUT_REGISTER_0) (reg lv AUX_INPUT_REGISTER_0) false),
   ([IS_LT], evalAddcy (lv IS_LT) (reg lv INPUT_REGISTER_1) (reg lv AUX_INPUT_REGISTER_0) (reg lv INPUT_REGISTER_0) (reg lv OUTPUT_REGISTER) false),
   ([IS_GT], evalAddcy (lv IS_GT) (reg lv INPUT_REGISTER_0) (reg lv AUX_INPUT_REGISTER_0) (reg lv INPUT_REGISTER_1) (reg lv OUTPUT_REGISTER) false),
   ([IS_DIV], evalDivmodHelper lv nv (lv IS_DIV) INPUT_REGISTER_0 INPUT_REGISTER_1 OUTPUT_REGISTER AUX_INPUT_REGISTER_0),
   ([IS_MOD], evalDivmodHelper lv nv (lv IS_MOD) INPUT_REGISTER_0 INPUT_REGISTER_1 AUX_INPUT_REGISTER_0 OUTPUT_REGISTER),
   ([IS_ADDMOD, IS_SUBMOD, IS_MULMOD, IS_ADDFP254, IS_MULFP254, IS_SUBFP254], evalModular lv nv),
   ([IS_BYTE], evalByte lv),
   ([IS_SHL], evalMulWith lv (lv IS_SHL) (reg lv INPUT_REGISTER_1) (reg lv INPUT_REGISTER_2)),
   ([IS_SHR], evalDivmodHelper lv nv (lv IS_SHR) INPUT_REGISTER_1 INPUT_REGISTER_2 OUTPUT_REGISTER AUX_INPUT_REGISTER_0)]

theorem evalOps_eq (lv nv : Row R) : evalOps lv nv = (parts lv nv).flatMap (·.2) := by
  simp [evalOps, parts, evalAddSubLtGt, evalDivmod, evalShift, List.append_assoc]

/-- A part none of whose flags is set is zero, whatever the next row is. -/
theorem part_zero {lv nv : Row R} {p : List ℕ × List (Constr R)} (hp : p ∈ parts lv nv) (h : ∀ f ∈ p.1, lv f = 0) : AllZero p.2 := by
  simp only [parts, List.mem_cons, List.not_mem_nil, or_false] at hp
  rcases hp with rfl | rfl | rfl | rfl | rfl | rfl | rfl | rfl | rfl | rfl | rfl
  · unfold evalMul evalMulWith; rw [h IS_MUL (by simp)]; exact .map fun i _ => by ring
  · simp only [h IS_ADD (by simp)]; exact addcy_zero _ _ _ _ _
  · simp only [h IS_SUB (by simp)]; exact addcy_zero _ _ _ _ _
  · simp only [h IS_LT (by simp)]; exact addcy_zero _ _ _ _ _
  · simp only [h IS_GT (by simp)]; exact addcy_zero _ _ _ _ _
  · simp only [h IS_DIV (by simp)]; exact divmodHelper_zero _ _ _ _ _ _
  · simp only [h IS_MOD (by simp)]; exact divmodHelper_zero _ _ _ _ _ _
  · unfold evalModular
    simp only [h IS_ADDMOD (by simp), h IS_SUBMOD (by simp), h IS_MULMOD (by simp), h IS_ADDFP254 (by simp),
      h IS_MULFP254 (by simp), h IS_SUBFP254 (by simp), add_zero]
    refine ((((((AllZero.append ?_ (.map fun i _ => by ring)).append ?_).append (modularConstr_zero _ _ _ _ _)).append
      (.map fun i _ => by ring)).append (.map fun i _ => by ring)).append (.map fun i _ => by ring))
    · intro c hc; simp at hc; rw [hc]
    · unfold submodConstrPoly
      simp only
      refine AllZero.append ?_ (modularConstr_zero _ _ _ _ _)
      intro c hc
      rcases List.mem_cons.1 hc with rfl | hc
      · ring
      · obtain ⟨i, -, rfl⟩ := List.mem_map.1 hc; ring
  · unfold evalByte
    simp only [h IS_BYTE (by simp)]
    refine (((((((AllZero.map fun i _ => by ring).append ?_).append (.map fun i _ => by ring)).append (.map fun i _ => by ring)).append
      (.map fun i _ => by ring)).append ?_).append (.map fun i _ => by ring))
    · intro c hc; simp at hc; rw [hc]
    · intro c hc
      simp only [List.mem_cons, List.not_mem_nil, or_false] at hc
      rcases hc with rfl | rfl | rfl | rfl | rfl | rfl | rfl <;> ring
  · unfold evalMulWith; rw [h IS_SHL (by simp)]; exact .map fun i _ => by ring
  · simp only [h IS_SHR (by simp)]; exact divmodHelper_zero _ _ _ _ _ _

theorem part_flags {lv nv : Row R} {p : List ℕ × List (Constr R)} (hp : p ∈ parts lv nv) : ∀ f ∈ p.1, f < N_FLAGS := by
  simp only [parts, List.mem_cons, List.not_mem_nil, or_false] at hp
  rcases hp with rfl | rfl | rfl | rfl | rfl | rfl | rfl | rfl | rfl | rfl | rfl <;> dsimp only <;> decide

/-- A row without flags satisfies the constraints of all operations, whatever the next row is. -/
theorem ops_zero {lv nv : Row R} (h : ∀ f < N_FLAGS, lv f = 0) : AllZero (evalOps lv nv) := by
  intro c hc
  rw [evalOps_eq, List.mem_flatMap] at hc
  obtain ⟨p, hp, hc⟩ := hc
  exact part_zero hp (fun f hf => h f (part_flags hp f hf)) c hc

theorem flags_zero {lv : Row R} (h : ∀ f < N_FLAGS, lv f = 0) (ho : lv OPCODE_COL = 0) : AllZero (evalFlags lv) := by
  unfold evalFlags
  refine AllZero.append (.map fun i hi => by rw [h i hi]; ring) ?_
  intro c hc
  simp only [List.mem_cons, List.not_mem_nil, or_false] at hc
  rcases hc with rfl | rfl
  · have : ((List.range N_FLAGS).map lv).sum = 0 := by
      rw [sum_range_map]; exact sum_eq_zero (fun i hi => h i (mem_range.1 hi))
    simp only [this]; ring
  · simp only [ho]; ring

end

/-- The table of height `2^16` with the given first rows and, below them, padding; the range counter counts.
As `generate_trace` and `generate_range_checks` lay it out, `arithmetic_stark.rs:131-152, 172-188`. -/
def mkTable (rows : List (List ℕ)) : ℕ → Row F := fun i c =>
  if c = RANGE_COUNTER then ((min i 65535 : ℕ) : F) else (((rows.getD i []).getD c 0 : ℕ) : F)

/-- The evaluation the kernel performs for row `i`: the constraints on the flags and those of the selected operation are
zero. -/
def checkRow (rows : List (List ℕ)) (i : ℕ) : Bool :=
  ((evalFlags (mkTable rows i)).all (fun c => decide (c.val.val = 0))) &&
  ((parts (mkTable rows i) (mkTable rows (i + 1))).all (fun p => p.1.all (fun f => decide ((mkTable rows i f).val = 0)) ||
    p.2.all (fun c => decide (c.on = .last) || decide (c.val.val = 0)))) &&
  ((rows.getD i []).all (fun v => decide (v < 65536)))

theorem mkTable_pad {rows : List (List ℕ)} {i c : ℕ} (hi : rows.length ≤ i) (hc : c ≠ RANGE_COUNTER) : mkTable rows i c = 0 := by
  unfold mkTable
  rw [if_neg hc, List.getD_eq_default _ _ hi]; simp

theorem mkTable_counter (rows : List (List ℕ)) (i : ℕ) : mkTable rows i RANGE_COUNTER = ((min i 65535 : ℕ) : F) := by
  unfold mkTable; rw [if_pos rfl]

/-- A table whose first rows pass the evaluation is accepted. -/
theorem mkTable_accepted {rows : List (List ℕ)} (h : ∀ i < rows.length, checkRow rows i = true) (hl : rows.length < 65535) :
    Accepted 65536 (mkTable rows) := by
  have hrow : ∀ i < rows.length,
      (∀ c ∈ evalFlags (mkTable rows i) ++ evalOps (mkTable rows i) (mkTable rows (i + 1)), c.on ≠ .last → c.val = 0) ∧
      ∀ v ∈ rows.getD i [], v < 65536 := by
    intro i hi
    have := h i hi
    rw [checkRow, Bool.and_eq_true, Bool.and_eq_true] at this
    obtain ⟨⟨h1, h2⟩, h3⟩ := this
    refine ⟨fun c hc hl => ?_, fun v hv => of_decide_eq_true (List.all_eq_true.1 h3 v hv)⟩
    rcases List.mem_append.1 hc with hc | hc
    · exact (ZMod.val_eq_zero _).1 (of_decide_eq_true (List.all_eq_true.1 h1 c hc))
    · rw [evalOps_eq, List.mem_flatMap] at hc
      obtain ⟨p, hp, hc⟩ := hc
      have h4 := List.all_eq_true.1 h2 p hp
      rw [Bool.or_eq_true] at h4
      rcases h4 with h4 | h4
      · exact part_zero hp (fun f hf => (ZMod.val_eq_zero _).1 (of_decide_eq_true (List.all_eq_true.1 h4 f hf))) c hc
      · have h5 := List.all_eq_true.1 h4 c hc
        rw [Bool.or_eq_true] at h5
        rcases h5 with h | h
        · exact absurd (of_decide_eq_true h) hl
        · exact (ZMod.val_eq_zero _).1 (of_decide_eq_true h)
  constructor
  · intro i hi c hc ha
    rw [evalArith_eq, List.append_assoc, List.mem_append, List.mem_append] at hc
    have hcount : c ∈ evalCounter (mkTable rows i) (mkTable rows ((i + 1) % 65536)) → c.val = 0 := by
      intro hc
      simp only [evalCounter, mkTable_counter, List.mem_cons, List.not_mem_nil, or_false] at hc
      rcases hc with rfl | rfl | rfl
      · simp only [When.applies] at ha; subst ha; simp
      · simp only [When.applies] at ha
        rw [Nat.mod_eq_of_lt (by omega), Nat.min_eq_left (by omega), Nat.min_eq_left (by omega)]
        push_cast; ring
      · simp only [When.applies] at ha
        rw [Nat.min_eq_left (by omega), show i = 65535 by omega]; push_cast; ring
    rcases Nat.lt_or_ge i rows.length with hlt | hge
    · have hmod : (i + 1) % 65536 = i + 1 := Nat.mod_eq_of_lt (by omega)
      have hl : c.on ≠ .last := by
        intro e; rw [e] at ha; simp only [When.applies] at ha; omega
      rcases hc with hc | hc | hc
      · exact (hrow i hlt).1 c (List.mem_append_left _ hc) hl
      · exact hcount hc
      · rw [hmod] at hc; exact (hrow i hlt).1 c (List.mem_append_right _ hc) hl
    · have hz : ∀ f < N_FLAGS, mkTable rows i f = 0 := fun f hf => mkTable_pad hge (by simp only [N_FLAGS, RANGE_COUNTER] at *; omega)
      rcases hc with hc | hc | hc
      · exact flags_zero hz (mkTable_pad hge (by decide)) c hc
      · exact hcount hc
      · exact ops_zero hz c hc
  · intro i hi c hc hc'
    have hne : c ≠ RANGE_COUNTER := by simp only [START_SHARED_COLS, NUM_SHARED_COLS, RANGE_COUNTER] at *; omega
    have hv : (rows.getD i []).getD c 0 < 65536 := by
      rcases Nat.lt_or_ge i rows.length with hlt | hge
      · rcases Nat.lt_or_ge c (rows.getD i []).length with h1 | h1
        · rw [List.getD_eq_getElem _ _ h1]; exact (hrow i hlt).2 _ (List.getElem_mem h1)
        · rw [List.getD_eq_default _ _ h1]; decide
      · rw [List.getD_eq_default _ _ hge]; simp
    refine ⟨(rows.getD i []).getD c 0, hv, ?_⟩
    rw [mkTable_counter, Nat.min_eq_left (by omega)]
    unfold mkTable
    rw [if_neg hne]

end Verif.Stark.Arith
