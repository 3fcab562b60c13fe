import Verif.Stark.Field
import Mathlib.Algebra.BigOperators.Group.List.Basic
import Mathlib.Algebra.BigOperators.Ring.Finset
import Mathlib.Algebra.Order.BigOperators.Group.Finset
import Mathlib.Tactic.Ring
import Mathlib.Tactic.LinearCombination
import Mathlib.Tactic.Linarith

/-! How the tables state their constraints, and what it means for a trace to satisfy them. -/

namespace Verif.Stark

/-- The rows a constraint applies to: every row, every row but the last, the first row or the last row. The methods
`constraint`, `constraint_transition`, `constraint_first_row` and `constraint_last_row` of starky's `ConstraintConsumer`
(`starky::constraint_consumer`, imported at `evm_arithmetization/src/arithmetic/arithmetic_stark.rs:12`). -/
inductive When
  | always | transition | first | last
  deriving DecidableEq, Repr

/-- One yielded constraint: the value must be zero on the rows it applies to. -/
structure Constr (R : Type) where
  on : When
  val : R

/-- A row of a table: the value of each column. The rows of the code are arrays of fixed length; indices beyond it are not
used. -/
abbrev Row (R : Type) : Type := ℕ → R

/-- Whether a constraint with the given scope applies to row `i` of a table of height `n`. -/
def When.applies : When → (n i : ℕ) → Prop
  | .always, _, _ => True
  | .transition, n, i => i + 1 ≠ n
  | .first, _, i => i = 0
  | .last, n, i => i + 1 = n

/-- A trace of height `n` satisfies the constraints `cs lv nv`: on every row each constraint that applies is zero; the row
after the last one is the first one. This is what starky's quotient polynomial check enforces, which is not modelled. -/
def Satisfies {R : Type} [Zero R] (cs : Row R → Row R → List (Constr R)) (n : ℕ) (T : ℕ → Row R) : Prop :=
  ∀ i < n, ∀ c ∈ cs (T i) (T ((i + 1) % n)), c.on.applies n i → c.val = 0

/-- An integer smaller than the field in absolute value whose image in the field is zero is zero. -/
theorem lift_zero {e : ℤ} (h : (e : F) = 0) (hb : |e| < (P : ℤ)) : e = 0 := by
  have := (ZMod.intCast_zmod_eq_zero_iff_dvd e P).1 h
  exact Int.eq_zero_of_abs_lt_dvd this hb

theorem lift_eq {a b : ℤ} (h : (a : F) = (b : F)) (hb : |a - b| < (P : ℤ)) : a = b := by
  have : a - b = 0 := lift_zero (by push_cast; rw [h, sub_self]) hb
  omega

theorem cast_val (x : F) : ((x.val : ℤ) : F) = x := by
  rw [Int.cast_natCast, ZMod.natCast_zmod_val]

end Verif.Stark
