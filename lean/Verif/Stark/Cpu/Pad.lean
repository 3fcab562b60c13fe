import Verif.Stark.Cpu.Regs

/-! C93: where the execution starts and where it ends, and tables that execute nothing. -/

namespace Verif.Stark.Cpu

variable {L : Labels} {lv nv : Row F}

/-- A row is a padding row: it executes nothing. -/
def Padding (r : Row F) : Prop := ∀ f ∈ flags, r f = 0

/-- C93 in full: the first row is that of clock 1 and starts the kernel at `init`, in kernel mode, with an empty stack and no gas used, the
clock advances by one from row to row, and the execution ends in kernel mode at `halt_final`, after which there are only padding rows. -/
def C93_statement : Prop :=
  ∀ (L : Labels) (n : ℕ) (T : ℕ → Row F), 0 < n → Accepted L n T →
    (¬ Padding (T 0) ∧ T 0 PC = L.init ∧ T 0 KERNEL_MODE = 1 ∧ T 0 STACK_LEN = 0 ∧ T 0 GAS = 0) ∧
    (∀ i < n, T i CLOCK = ((i + 1 : ℕ) : F)) ∧
    (∃ e, e < n ∧ (∀ i < e, ¬ Padding (T i)) ∧ ∀ i < n, e ≤ i → Padding (T i) ∧ T i PC = L.haltFinal ∧ T i KERNEL_MODE = 1)

theorem cycle_pad {r : Row F} (h : Padding r) : cycle r = 0 := sum_zero h

theorem Always.padding (h : Always L lv nv) (hc : Cpu.cycle lv = 0) : Padding lv := by
  rcases h.pad_or with ⟨_, hz⟩ | ⟨f, hf, h1⟩
  · exact hz
  · rw [h.cycle_one hf h1] at hc
    exact absurd hc one_ne_zero

theorem Accepted.clock {n : ℕ} {T : ℕ → Row F} (h : Accepted L n T) : ∀ i < n, T i CLOCK = ((i + 1 : ℕ) : F)
  | 0, hi => by
    have := h 0 hi ⟨.first, T 0 CLOCK - 1⟩ (mem_group clock_mem (by simp [evalClock])) rfl
    simpa using sub_eq_zero.1 this
  | i + 1, hi => by
    have ih := h.clock i (by omega)
    have := (h.step hi).get clock_mem (w := .transition) (v := T (i + 1) CLOCK - T i CLOCK - 1) (by simp [evalClock]) (.inr rfl)
    rw [ih] at this
    push_cast at this ⊢
    linear_combination this

theorem Accepted.pad_next {n : ℕ} {T : ℕ → Row F} (h : Accepted L n T) {i : ℕ} (hi : i + 1 < n) (hp : Padding (T i)) : Padding (T (i + 1)) := by
  have := (h.step hi).get halt_mem (w := .transition) (v := (1 - cycle (T i)) * (1 - cycle (T (i + 1)) - 1)) (by simp [evalHalt]) (.inr rfl)
  rw [cycle_pad hp] at this
  exact (h.always hi).padding (by linear_combination -this)

theorem Accepted.pad_mono {n : ℕ} {T : ℕ → Row F} (h : Accepted L n T) {i : ℕ} (hp : Padding (T i)) : ∀ j, i ≤ j → j < n → Padding (T j) := by
  intro j hij
  induction j, hij using Nat.le_induction with
  | base => exact fun _ => hp
  | succ j hj ih => exact fun hjn => h.pad_next hjn (ih (by omega))

theorem Accepted.pad_state {n : ℕ} {T : ℕ → Row F} (h : Accepted L n T) {i : ℕ} (hi : i < n) (hp : Padding (T i)) :
    T i PC = L.haltFinal ∧ T i KERNEL_MODE = 1 := by
  have a := h.always hi
  have g1 := a.get halt_mem (v := (1 - cycle (T i)) * (T i PC - L.haltFinal)) (by simp [evalHalt])
  have g2 := a.get halt_mem (v := (1 - cycle (T i)) * (T i KERNEL_MODE - 1)) (by simp [evalHalt])
  rw [cycle_pad hp, sub_zero, one_mul] at g1 g2
  exact ⟨sub_eq_zero.1 g1, sub_eq_zero.1 g2⟩

/-- C93, the part that holds: the clock of row `i` is `i + 1`, and the execution ends in kernel mode at `halt_final`, after which there
are only padding rows. Missing: where it starts (`C93_statement`), for which see `C93_violated`. -/
theorem C93_end_partial {n : ℕ} {T : ℕ → Row F} (hn : 0 < n) (h : Accepted L n T) :
    (∀ i < n, T i CLOCK = ((i + 1 : ℕ) : F)) ∧
    (∃ e, e < n ∧ (∀ i < e, ¬ Padding (T i)) ∧ ∀ i < n, e ≤ i → Padding (T i) ∧ T i PC = L.haltFinal ∧ T i KERNEL_MODE = 1) := by
  classical
  refine ⟨h.clock, ?_⟩
  have hlast : Padding (T (n - 1)) := by
    refine (h.always (i := n - 1) (by omega)).padding ?_
    have := h (n - 1) (by omega) ⟨.last, 1 - cycle (T (n - 1)) - 1⟩ (mem_group halt_mem (by simp [evalHalt])) (by simp only [When.applies]; omega)
    linear_combination -this
  have hex : ∃ e, Padding (T e) := ⟨n - 1, hlast⟩
  refine ⟨Nat.find hex, ?_, fun i hi => Nat.find_min hex hi, fun i hi he => ?_⟩
  · have := Nat.find_min' hex hlast
    omega
  · have hp := h.pad_mono (Nat.find_spec hex) i he hi
    exact ⟨hp, h.pad_state hi hp⟩

/-! ### Tables of padding rows -/

/-- What the constraints require of a padding row at clock `t`. -/
structure PadRow (L : Labels) (r : Row F) : Prop where
  pad : Padding r
  pc : r PC = L.haltFinal
  mode : r KERNEL_MODE = 1
  code : r CODE_CONTEXT = 0
  bits : ∀ i < 8, r (BIT i) = 0
  used : ∀ c < 3, r (USED c) = 0
  part : r P_USED = 0 ∨ r P_USED = 1

theorem all_append {l l' : List (Constr F)} (h : ∀ c ∈ l, c.val = 0) (h' : ∀ c ∈ l', c.val = 0) : ∀ c ∈ l ++ l', c.val = 0 := by
  intro c hc
  rcases List.mem_append.1 hc with h1 | h1
  · exact h c h1
  · exact h' c h1

theorem all_map {α : Type} {l : List α} {f : α → Constr F} (h : ∀ a ∈ l, (f a).val = 0) : ∀ c ∈ l.map f, c.val = 0 := by
  intro c hc
  obtain ⟨a, ha, rfl⟩ := List.mem_map.1 hc
  exact h a ha

theorem one_zero (lv nv : Row F) (b : Behavior) : ∀ c ∈ evalOne lv nv 0 b, c.val = 0 := by
  obtain ⟨p, q, d⟩ := b
  unfold evalOne
  refine all_append (all_append ?_ ?_) ?_
  · split
    · refine all_append (all_append ?_ ?_) ?_
      · intro c hc
        obtain ⟨i, _, hc⟩ := List.mem_flatMap.1 hc
        simp only [List.mem_cons, List.not_mem_nil, or_false] at hc
        rcases hc with e | e | e | e | e <;> rw [e] <;> exact zero_mul _
      · simp
      · cases q
        · simp [readTop]
        · simp
    · cases q
      · simp [limbs8]
      · simp
  · cases d <;> simp
  · simp

theorem pad_zero (h : PadRow L lv) (h' : PadRow L nv) : ∀ c ∈ evalCpu L lv nv, c.on = .first ∧ c.val = lv CLOCK - 1 ∨
    c.on = .transition ∧ c.val = nv CLOCK - lv CLOCK - 1 ∨
    c.val = 0 := by
  have hc := cycle_pad h.pad
  have hc' := cycle_pad h'.pad
  have z : ∀ f, 6 ≤ f → f < 24 → lv f = 0 := fun f h1 h2 => h.pad f (mem_flags.2 ⟨h1, h2⟩)
  have z6 := z 6 (by decide) (by decide)
  have z7 := z 7 (by decide) (by decide)
  have z8 := z 8 (by decide) (by decide)
  have z9 := z 9 (by decide) (by decide)
  have z10 := z 10 (by decide) (by decide)
  have z11 := z 11 (by decide) (by decide)
  have z12 := z 12 (by decide) (by decide)
  have z13 := z 13 (by decide) (by decide)
  have z14 := z 14 (by decide) (by decide)
  have z15 := z 15 (by decide) (by decide)
  have z16 := z 16 (by decide) (by decide)
  have z17 := z 17 (by decide) (by decide)
  have z18 := z 18 (by decide) (by decide)
  have z19 := z 19 (by decide) (by decide)
  have z20 := z 20 (by decide) (by decide)
  have z21 := z 21 (by decide) (by decide)
  have z22 := z 22 (by decide) (by decide)
  have z23 := z 23 (by decide) (by decide)
  intro c hmem
  obtain ⟨g, hg, hcg⟩ := List.mem_flatten.1 hmem
  by_cases hclock : g = evalClock lv nv
  · subst hclock
    simp only [evalClock, List.mem_cons, List.not_mem_nil, or_false] at hcg
    rcases hcg with e | e <;> rw [e]
    · exact .inl ⟨rfl, rfl⟩
    · exact .inr (.inl ⟨rfl, rfl⟩)
  refine .inr (.inr ?_)
  revert c
  suffices ∀ c ∈ g, c.val = 0 from fun c _ hc => this c hc
  simp only [groups, List.mem_cons, List.not_mem_nil, or_false] at hg
  rcases hg with e | e | e | e | e | e | e | e | e | e | e | e | e | e | e | e | e | e <;> subst e
  · simp [evalByteUnpacking, z18]
  · exact absurd rfl hclock
  · simp [evalContext, evalContextKeep, keepsContext, flags, evalContextGet, evalContextSet, limbs8, z6, z7, z8, z9, z10, z11, z12, z13, z14, z15, z16, z17,
      z18, z19, z20, z21, z22, z23]
  · simp [evalControlFlow, nativeInstructions, hc, hc', z6, z7, z8, z9, z10, z11, z12, z13, z14, z15, z16, z17, z18, z19, z20, z21]
  · have hb := h.bits
    have hm := h.mode
    unfold evalDecode
    refine all_append (all_append (all_append (all_append (all_append (all_append ?_ ?_) ?_) ?_) ?_) ?_) ?_
    · simp [hm]
    · refine all_map (fun i hi => ?_)
      show lv (BIT i) * (lv (BIT i) - 1) = 0
      rw [hb i (List.mem_range.1 hi), zero_mul]
    · simp [opcodes, z9, z14, z16, z17, z19]
    · simp [combinedOpcodes, z6, z7, z8, z10, z11, z12, z13, z15, z18, z20, z21]
    · simp [opcodes, combinedOpcodes, z6, z7, z8, z9, z10, z11, z12, z13, z14, z15, z16, z17, z18, z19, z20, z21]
    · simp [opcodes, z9, z14, z16, z17, z19]
    · simp [z7, z8, z11, z13, z15, z18, z20, z21]
  · simp [evalDupSwap, evalDup, evalSwap, constrainChannel, limbs8, z16]
  · simp [evalGas, simpleCosts, hc, hc', z6, z7, z8, z9, z10, z11, z12, z13, z14, z15, z16, z17, z18, z19, z20, z21]
  · have hm := h.mode
    have hpc := h.pc
    have hu := h.used
    unfold evalHalt
    refine all_append (all_append ?_ ?_) ?_
    · simp [hc, hc', hm]
    · refine all_map (fun i hi => ?_)
      show (1 - cycle lv) * lv (USED i) = 0
      rw [hu i (List.mem_range.1 hi), mul_zero]
    · simp [hc, hpc]
  · simp [evalExitKernel, evalJumps, readTop, z14, z19]
  · have hm := h.mode
    have hco := h.code
    have hu := h.used
    unfold evalMembus
    refine all_append (all_append ?_ ?_) ?_
    · simp [hm, hco]
    · refine all_map (fun i hi => ?_)
      show lv (USED i) * (lv (USED i) - 1) = 0
      rw [hu i (List.mem_range.1 hi), zero_mul]
    · rcases h.part with e | e <;> simp [e]
  · refine all_append ?_ ?_
    · unfold evalLoad
      beta_reduce
      simp only [z20, zero_mul]
      refine all_append ?_ (one_zero _ _ _)
      simp [limbs8]
    · simp [evalStore, readTop, z20]
  · simp [evalModFp254, limbs8, z8]
  · simp [evalPc, z21]
  · simp [evalPush0, limbs8, z21]
  · simp [evalShift, z12]
  · refine all_append ?_ ?_
    · unfold evalNot
      beta_reduce
      simp only [z11, zero_mul]
      refine all_append ?_ (one_zero _ _ _)
      simp [limbs8]
    · unfold evalEqIszero
      beta_reduce
      simp only [z9, zero_mul]
      refine all_append (all_append ?_ (one_zero _ _ _)) (one_zero _ _ _)
      simp [limbs8]
  · unfold evalStack
    refine all_append (all_append (all_append (all_append ?_ ?_) ?_) ?_) ?_
    · intro c hc
      obtain ⟨o, ho, hc⟩ := List.mem_flatMap.1 hc
      have hfl : ∀ f ∈ stackBehaviors.map (·.1), f ∈ flags := by decide
      have : lv o.1 = 0 := h.pad _ (hfl _ (List.mem_map.2 ⟨o, ho, rfl⟩))
      rw [this] at hc
      exact one_zero _ _ _ c hc
    · simp [mightOverflow, z15, z16, z19, z21]
    · rw [z13, zero_mul]
      exact one_zero _ _ _
    · rw [z13, zero_mul]
      exact one_zero _ _ _
    · simp [evalPop, readTop, z11]
  · simp [evalSyscalls, z22, z23]

/-- Every table of padding rows is accepted, whatever their columns other than those `PadRow` mentions hold. -/
theorem pads_accepted {n : ℕ} {T : ℕ → Row F} (h : ∀ i < n, PadRow L (T i)) (hc : ∀ i < n, T i CLOCK = ((i + 1 : ℕ) : F)) : Accepted L n T := by
  intro i hi c hcm hon
  have hn : (i + 1) % n < n := Nat.mod_lt _ (by omega)
  rcases pad_zero (h i hi) (h _ hn) c hcm with ⟨e, ev⟩ | ⟨e, ev⟩ | e
  · rw [e] at hon
    simp only [When.applies] at hon
    subst hon
    rw [ev, hc 0 hi]
    simp
  · rw [e] at hon
    simp only [When.applies] at hon
    rw [ev]
    have hi1 : i + 1 < n := by omega
    rw [Nat.mod_eq_of_lt hi1, hc i hi, hc _ hi1]
    push_cast
    ring
  · exact e

end Verif.Stark.Cpu
