import Verif.Zero.Chain
/-!
# Continuing from a previous proof; the verifier (`zero/src/pre_checks.rs`, `zero/src/bin/verifier.rs`) (C63, C64)
-/
namespace Verif.Zero.Resume
open Verif.Zero.Chain

/-! ## Model -/

/-- The outcome of the check: accepted, rejected, or a panic on overflow (in a release build the arithmetic wraps around instead). -/
inductive Out where
  | ok | err | panic
deriving DecidableEq

/-- `check_previous_proof_and_checkpoint`; `prev` is the height in the previous proof. `zero/src/pre_checks.rs:3-31`. -/
def check (checkpoint : Nat) (prev : Option Nat) (start : Nat) : Out :=
  match prev with
  | some h =>
    if h + 1 = 2 ^ 64 then .panic
    else if h + 1 ≠ start then .err
    else if checkpoint ≥ start then .err
    else .ok
  | none =>
    if start = 0 then .panic
    else if checkpoint ≠ start - 1 then .err
    else .ok

/-- What a run of the verifier binary shows: whether it logs that all proofs verified, and whether it exits with success.
`main` after reading the proofs; `verify` says whether one proof verifies. `zero/src/bin/verifier.rs:22-54`. -/
def verifierMain {P : Type} (verify : P → Bool) (proofs : List P) : Bool × Bool := (proofs.all verify, true)

/-! ## Specification -/

/-- Consecutive numbers from `a`. -/
def Consecutive (a : Nat) : List Nat → Prop
  | [] => True
  | n :: l => n = a ∧ Consecutive (a + 1) l

section
variable {I A P : Type}

/-- A run that continues from the proof `p`, with the blocks `bs`. -/
def resume (E : Env I A P) (p : P) (bs : List (I × Bool)) : Env I A P := { E with checkpoint := some p, blocks := bs }

/-! ## Proofs -/

/-- **C63.** A run is accepted exactly when it starts right after the previous proof and after the checkpoint, or,
without a previous proof, right after the checkpoint. The check panics at the ends of the number range only. -/
theorem C63_check (checkpoint start : Nat) (prev : Option Nat) :
    (check checkpoint prev start = .ok ↔
      (∀ h, prev = some h → h + 1 = start ∧ checkpoint < start ∧ start ≠ 2 ^ 64) ∧ (prev = none → checkpoint + 1 = start)) ∧
    (check checkpoint prev start = .panic ↔ (∃ h, prev = some h ∧ h + 1 = 2 ^ 64) ∨ (prev = none ∧ start = 0)) := by
  cases prev with
  | none =>
    simp only [check, reduceCtorEq, false_implies, implies_true, true_and, false_and, exists_false, false_or]
    by_cases h0 : start = 0
    · rw [if_pos h0]
      simp [h0]
    · rw [if_neg h0]
      by_cases h1 : checkpoint ≠ start - 1
      · rw [if_pos h1]
        simp [h0]
        omega
      · rw [if_neg h1]
        simp [h0]
        omega
  | some h =>
    simp only [check, Option.some.injEq, forall_eq', reduceCtorEq, false_implies, and_true, false_and, or_false, exists_eq_left']
    by_cases h0 : h + 1 = 2 ^ 64
    · rw [if_pos h0]
      simp [h0]
      omega
    · rw [if_neg h0]
      by_cases h1 : h + 1 ≠ start
      · rw [if_pos h1]
        exact ⟨⟨fun e => (by cases e), fun e => absurd e.1 h1⟩, ⟨fun e => (by cases e), fun e => absurd e h0⟩⟩
      · rw [if_neg h1]
        by_cases h2 : checkpoint ≥ start
        · rw [if_pos h2]
          exact ⟨⟨fun e => (by cases e), fun e => absurd e.2.1 (by omega)⟩, ⟨fun e => (by cases e), fun e => absurd e h0⟩⟩
        · rw [if_neg h2]
          exact ⟨⟨fun _ => ⟨by omega, by omega, by omega⟩, fun _ => rfl⟩, ⟨fun e => (by cases e), fun e => absurd e h0⟩⟩

theorem consecutive_append : ∀ (l m : List Nat) (a : Nat), Consecutive a l → Consecutive (a + l.length) m → Consecutive a (l ++ m)
  | [], _, _, _, h => h
  | n :: l, m, a, h, h' => ⟨h.1, consecutive_append l m (a + 1) h.2 (by rw [List.length_cons] at h'; rw [Nat.add_assoc, Nat.add_comm 1]; exact h')⟩

theorem consecutive_last : ∀ (l : List Nat) (a n : Nat), Consecutive a (l ++ [n]) → n = a + l.length
  | [], a, n, h => h.1
  | x :: l, a, n, h => by
    have := consecutive_last l (a + 1) n h.2
    rw [List.length_cons]
    omega

theorem proves_resume {E : Env I A P} {p : P} {bs : List (I × Bool)} {is js : List I} {q : P} (h : Proves E is p) (h' : Proves (resume E p bs) js q) :
    Proves E (is ++ js) q := by
  induction h' with
  | one e => exact .snoc h e
  | snoc _ e ih => rw [← List.append_assoc]; exact .snoc ih e

theorem proves_height {E : Env I A P} {num : I → Nat} (hh : ∀ prev i p, E.proveBlock prev i = some p → E.height p = num i) {is : List I} {p : P}
    (h : Proves E is p) : ∃ js i, is = js ++ [i] ∧ E.height p = num i := by
  cases h with
  | one e => exact ⟨[], _, rfl, hh _ _ _ e⟩
  | snoc _ e => exact ⟨_, _, rfl, hh _ _ _ e⟩

/-- **C63.** If a first run proves consecutive blocks from `a` and a second run, given its proof, is accepted and proves
consecutive blocks from its start, then the second proof proves all the blocks of both runs, one on top of the
other, with consecutive numbers from `a`. -/
theorem C63_resume {E : Env I A P} {num : I → Nat} (hh : ∀ prev i p, E.proveBlock prev i = some p → E.height p = num i)
    {is js : List I} {p q : P} {bs : List (I × Bool)} {a start checkpoint : Nat} (h1 : Proves E is p) (c1 : Consecutive a (is.map num))
    (hc : check checkpoint (some (E.height p)) start = .ok) (h2 : Proves (resume E p bs) js q) (c2 : Consecutive start (js.map num)) :
    Proves E (is ++ js) q ∧ Consecutive a ((is ++ js).map num) := by
  refine ⟨proves_resume h1 h2, ?_⟩
  rw [List.map_append]
  refine consecutive_append _ _ _ c1 ?_
  obtain ⟨ks, i, rfl, hi⟩ := proves_height hh h1
  rw [List.map_append] at c1
  have hl := consecutive_last _ _ _ c1
  have hs := (((C63_check checkpoint start (some (E.height p))).1.1 hc).1 _ rfl).1
  rw [show a + (((ks ++ [i]).map num)).length = start by
    rw [List.length_map, List.length_append, List.length_singleton]
    rw [List.length_map] at hl
    omega]
  exact c2

/-- C64, in full: the verifier exits with success only if every proof verifies. -/
def C64_statement : Prop := ∀ (P : Type) (verify : P → Bool) (proofs : List P),
  (verifierMain verify proofs).2 = true → ∀ p, p ∈ proofs → verify p = true

/-- **C64 is violated.** The verifier exits with success although a proof does not verify. -/
theorem C64_violated : ¬ C64_statement := by
  intro h
  have := h Bool id [true, false] rfl false (by simp)
  cases this

/-- **C64 (partial: the log message, not the exit status).** The verifier logs success exactly when all proofs verify. -/
theorem C64_message_partial {P : Type} (verify : P → Bool) (proofs : List P) :
    (verifierMain verify proofs).1 = true ↔ ∀ p, p ∈ proofs → verify p = true := by
  unfold verifierMain
  simp

end

/-- Blocks are their numbers, proofs the list of numbers they cover. -/
def demoEnv : Env Nat Nat (List Nat) where
  prep := some
  blk prev n := some (prev.getD [] ++ [n])
  height p := p.getLastD 0
  blocks := [(5, false), (6, true)]
  checkpoint := none

example : check 4 (some (demoEnv.height [5, 6])) 7 = .ok ∧ check 4 none 5 = .ok ∧ check 4 none 6 = .err := by decide

example : Proves demoEnv [5, 6] [5, 6] ∧ Consecutive 5 [5, 6] ∧ Proves (resume demoEnv [5, 6] [(7, true)]) [7] [5, 6, 7] ∧
    ∀ prev i p, demoEnv.proveBlock prev i = some p → demoEnv.height p = i := by
  refine ⟨.snoc (is := [5]) (q := [5]) (.one rfl) rfl, ⟨rfl, rfl, trivial⟩, .one rfl, ?_⟩
  intro prev i p h
  have : p = prev.getD [] ++ [i] := (Option.some.inj h).symm
  subst this
  simp [demoEnv, List.getLastD_eq_getLast?]

end Verif.Zero.Resume
