import Verif.Stark.Cpu.Spec

/-! Concrete CPU tables, to be checked by evaluation. -/

namespace Verif.Stark.Cpu

instance (w : When) (n i : ℕ) : Decidable (w.applies n i) := by
  cases w <;> unfold When.applies <;> infer_instance

/-- A row given by its columns that are not zero. -/
def mkRow (l : List (ℕ × ℕ)) : Row F := fun c => (((l.lookup c).getD 0 : ℕ) : F)

/-- The bits of an opcode. -/
def opBits (o : ℕ) : List (ℕ × ℕ) := (List.range 8).map (fun i => (BIT i, if o.testBit i then 1 else 0))

/-- The table with the given rows. -/
def mkTable (rows : List (List (ℕ × ℕ))) : ℕ → Row F := fun i => mkRow (rows.getD i [])

/-- The constraints of row `i` hold. -/
def checkRow (L : Labels) (rows : List (List (ℕ × ℕ))) (i : ℕ) : Bool :=
  (evalCpu L (mkTable rows i) (mkTable rows ((i + 1) % rows.length))).all (fun c => !decide (c.on.applies rows.length i) || decide (c.val = 0))

theorem mkTable_accepted {L : Labels} {rows : List (List (ℕ × ℕ))} (h : ∀ i < rows.length, checkRow L rows i = true) :
    Accepted L rows.length (mkTable rows) := by
  intro i hi c hc hon
  have := List.all_eq_true.1 (h i hi) c hc
  simpa [hon] using this

/-- Labels for the examples. -/
def labels : Labels := ⟨0, 100, 200, 300⟩

/-- A padding row at clock `t`. -/
def padRow (t : ℕ) : List (ℕ × ℕ) := [(PC, 100), (KERNEL_MODE, 1), (CLOCK, t)]

end Verif.Stark.Cpu
