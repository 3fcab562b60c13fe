import Verif.Stark.Memory.Claims

/-! C99: the operations in an accepted memory table, carried out one after the other in the order of their times, are those of one memory. -/

namespace Verif.Stark.Memory

/-- An operation as the other tables see it: `ctl_data`, `memory_stark.rs:34-46`. -/
structure Acc where
  time : ℕ
  isRead : F
  addr : F × F × F
  value : List F

/-- The operation of a row. `ctl_data`, `memory_stark.rs:34-46`. -/
def accOf (r : Row F) : Acc := ⟨time r, r IS_READ, addr r, (List.range 8).map (fun k => r (VALUE + k))⟩

/-! ### Specification -/

/-- A memory: the eight limbs at every address. -/
abbrev LMem := F × F × F → List F

/-- What an operation does to a memory. -/
def LMem.step (M : LMem) (o : Acc) : LMem := if o.isRead = 0 then Function.update M o.addr o.value else M

/-- The memory after some operations. -/
def LMem.after (M : LMem) (os : List Acc) : LMem := os.foldl LMem.step M

/-- The operations are carried out one after the other: every read gives what the memory holds. -/
def Consistent : LMem → List Acc → Prop
  | _, [] => True
  | M, o :: os => (o.isRead ≠ 0 → o.value = M o.addr) ∧ Consistent (M.step o) os

/-- `o` is earlier than `o'`, or they are simultaneous and do not interfere. -/
def Acc.Before (o o' : Acc) : Prop := o.time < o'.time ∨ (o.time = o'.time ∧ (o.addr = o'.addr → o.isRead ≠ 0 ∧ o'.isRead ≠ 0))

/-- The table `T` shows the other tables exactly the operations `ops`. -/
def Shows (n : ℕ) (T : ℕ → Row F) (ops : List Acc) : Prop := ∀ o, o ∈ ops ↔ ∃ i < n, Real (T i) ∧ accOf (T i) = o

/-- The operations `ops` are among those the table `T` shows, and the writes are all there. -/
def Covers (n : ℕ) (T : ℕ → Row F) (ops : List Acc) : Prop :=
  (∀ o ∈ ops, ∃ i < n, Real (T i) ∧ accOf (T i) = o) ∧ ∀ i < n, Real (T i) → IsWrite (T i) → accOf (T i) ∈ ops

theorem Shows.covers {n : ℕ} {T : ℕ → Row F} {ops : List Acc} (h : Shows n T ops) : Covers n T ops :=
  ⟨fun o ho => (h o).1 ho, fun i hi hr _ => (h _).2 ⟨i, hi, hr, rfl⟩⟩

/-- C99 in full: the operations the table shows, in the order of time, are those of a memory that is zero outside the segments that are filled
beforehand. The times are below `B`, and `B + n²` is at most the size of the field. -/
def C99_statement : Prop := ∀ (n B : ℕ) (T : ℕ → Row F) (ops : List Acc), Accepted n T → B + n * n ≤ P → 0 < B → Shows n T ops →
  (∀ o ∈ ops, o.time < B) → ops.Pairwise Acc.Before →
  ∃ init : LMem, (∀ a, ZeroInit a.2.1 → init a = List.replicate 8 0) ∧ Consistent init ops

/-! ### Memories -/

theorem consistent_iff {M : LMem} {os : List Acc} :
    Consistent M os ↔ ∀ p r q, os = p ++ r :: q → r.isRead ≠ 0 → r.value = M.after p r.addr := by
  induction os generalizing M with
  | nil => exact ⟨fun _ p r q h => by simp at h, fun _ => trivial⟩
  | cons o os ih =>
    constructor
    · rintro ⟨h1, h2⟩ p r q h hr
      cases p with
      | nil =>
        simp only [List.nil_append, List.cons.injEq] at h
        obtain ⟨rfl, rfl⟩ := h
        exact h1 hr
      | cons a p =>
        simp only [List.cons_append, List.cons.injEq] at h
        obtain ⟨rfl, h⟩ := h
        exact ih.1 h2 p r q h hr
    · intro h
      refine ⟨fun hr => h [] o os rfl hr, ih.2 (fun p r q hp hr => h (o :: p) r q (by rw [hp]; rfl) hr)⟩

theorem Consistent.append {M : LMem} {os os' : List Acc} : Consistent M (os ++ os') ↔ Consistent M os ∧ Consistent (M.after os) os' := by
  induction os generalizing M with
  | nil => simp [Consistent, LMem.after]
  | cons o os ih => simp only [List.cons_append, Consistent, ih, LMem.after, List.foldl_cons, and_assoc]

/-- What a memory holds: the last value written, or the initial one. -/
theorem after_cases (M : LMem) (os : List Acc) (a : F × F × F) :
    (∃ p w q, os = p ++ w :: q ∧ w.isRead = 0 ∧ w.addr = a ∧ (∀ o ∈ q, o.isRead = 0 → o.addr ≠ a) ∧ M.after os a = w.value) ∨
    ((∀ o ∈ os, o.isRead = 0 → o.addr ≠ a) ∧ M.after os a = M a) := by
  induction os using List.reverseRecOn with
  | nil => exact .inr ⟨by simp, rfl⟩
  | append_singleton os o ih =>
    have he : M.after (os ++ [o]) = (M.after os).step o := by simp [LMem.after, List.foldl_append]
    rw [he]
    unfold LMem.step
    by_cases hw : o.isRead = 0 ∧ o.addr = a
    · obtain ⟨h1, rfl⟩ := hw
      exact .inl ⟨os, o, [], rfl, h1, rfl, by simp, by rw [if_pos h1, Function.update_self]⟩
    · have hsame : (if o.isRead = 0 then Function.update (M.after os) o.addr o.value else M.after os) a = M.after os a := by
        split
        · rename_i h1
          rw [Function.update_of_ne (fun h => hw ⟨h1, h.symm⟩)]
        · rfl
      rw [hsame]
      rcases ih with ⟨p, w, q, rfl, h1, h2, h3, h4⟩ | ⟨h1, h2⟩
      · refine .inl ⟨p, w, q ++ [o], by simp, h1, h2, fun o' ho' => ?_, h4⟩
        rcases List.mem_append.1 ho' with h | h
        · exact h3 o' h
        · simp only [List.mem_singleton] at h
          subst h
          exact fun h5 h6 => hw ⟨h5, h6⟩
      · refine .inr ⟨fun o' ho' => ?_, h2⟩
        rcases List.mem_append.1 ho' with h | h
        · exact h1 o' h
        · simp only [List.mem_singleton] at h
          subst h
          exact fun h5 h6 => hw ⟨h5, h6⟩

/-! ### C99 -/

/-- The initial values in the form of C42, as limbs. -/
def limbsOf (init : F × F × F → Fin 8 → F) : LMem := fun a => List.ofFn (init a)

theorem accOf_value (r : Row F) : (accOf r).value = List.ofFn (value r) := by
  unfold accOf value
  rw [List.ofFn_eq_map, ← List.map_coe_finRange_eq_range, List.map_map]
  rfl

/-- Reads that agree with the history of writes make the sequence consistent. -/
theorem consistent_of_reads {n : ℕ} {T : ℕ → Row F} {ops : List Acc} {init : F × F × F → Fin 8 → F} (hs : Covers n T ops)
    (ho : ops.Pairwise Acc.Before) (hr : ∀ j < n, Real (T j) → ¬ IsWrite (T j) → ReadOk n T init j) : Consistent (limbsOf init) ops := by
  rw [consistent_iff]
  intro p r q he hread
  obtain ⟨j, hj, hreal, rfl⟩ := hs.1 r (by rw [he]; simp)
  rw [he, List.pairwise_append, List.pairwise_cons] at ho
  obtain ⟨hpp, ⟨hafter, _⟩, hbefore⟩ := ho
  have hpre : ∀ w ∈ p, w.isRead = 0 → w.addr = (accOf (T j)).addr → w.time < (accOf (T j)).time := by
    intro w hw h0 ha
    rcases hbefore w hw (accOf (T j)) (by simp) with h | h
    · exact h
    · exact absurd h0 (h.2 ha).1
  have hpost : ∀ w ∈ q, w.isRead = 0 → w.addr = (accOf (T j)).addr → (accOf (T j)).time < w.time := by
    intro w hw h0 ha
    rcases hafter w hw with h | h
    · exact h
    · exact absurd h0 (h.2 ha.symm).2
  rcases hr j hj hreal hread with ⟨i, hi, hri, hwi, ha, hle, hv, hlast⟩ | ⟨hv, hno⟩
  · /- The latest write is in the first part, and it is the last one there. -/
    have hin : accOf (T i) ∈ p := by
      have : accOf (T i) ∈ ops := hs.2 i hi hri hwi
      rw [he, List.mem_append, List.mem_cons] at this
      rcases this with h | h | h
      · exact h
      · exact absurd (show (accOf (T i)).isRead = 0 from hwi) (by rw [h]; exact hread)
      · exact absurd (hpost _ h hwi ha) (not_lt.2 hle)
    rcases after_cases (limbsOf init) p (accOf (T j)).addr with ⟨p', w, q', hp, h0, hwa, hq, hval⟩ | ⟨h0, _⟩
    · rw [hval, accOf_value, hv, ← accOf_value]
      congr 1
      have hw : w ∈ p := by rw [hp]; simp
      obtain ⟨k, hk, hkr, rfl⟩ := hs.1 w (by rw [he]; exact List.mem_append_left _ hw)
      have hlt := hpre _ hw h0 hwa
      have hki : time (T k) ≤ time (T i) := (hlast k hk hkr h0 hwa).resolve_right (not_le.2 hlt)
      rw [hp, List.mem_append, List.mem_cons] at hin
      rcases hin with h | h | h
      · rw [hp, List.pairwise_append] at hpp
        rcases (hpp.2.2 (accOf (T i)) h (accOf (T k)) (by simp)) with h' | h'
        · exact absurd h' (not_lt.2 hki)
        · exact absurd (show (accOf (T i)).isRead = 0 from hwi) (h'.2 (show addr (T i) = addr (T k) from ha.trans hwa.symm)).1
      · exact h
      · exact absurd ha (hq _ h hwi)
    · exact absurd ha (h0 _ hin hwi)
  · rcases after_cases (limbsOf init) p (accOf (T j)).addr with ⟨p', w, q', hp, h0, hwa, hq, hval⟩ | ⟨_, h0⟩
    · have hw : w ∈ p := by rw [hp]; simp
      obtain ⟨k, hk, hkr, rfl⟩ := hs.1 w (by rw [he]; exact List.mem_append_left _ hw)
      exact absurd (hpre _ hw h0 hwa) (not_lt.2 (hno k hk hkr h0 hwa))
    · rw [h0, accOf_value, hv]
      rfl

/-- The same for a part of the operations that has all the writes: reads may be left out. -/
theorem covers_sequence {n B : ℕ} {T : ℕ → Row F} {ops : List Acc} (h : Accepted n T) (hB : B + n * n ≤ P) (hB0 : 0 < B) (hs : Covers n T ops)
    (ht : ∀ i < n, Real (T i) → time (T i) < B) (ho : ops.Pairwise Acc.Before) :
    ∃ init : LMem, (∀ a, ZeroInit a.2.1 → a ≠ addr (T 0) → init a = List.replicate 8 0) ∧ Consistent init ops := by
  obtain ⟨init, hz, hr⟩ := C42_reads_partial h hB hB0 ht
  refine ⟨limbsOf init, fun a ha hne => ?_, consistent_of_reads hs ho hr⟩
  unfold limbsOf
  rw [hz a ha hne]
  exact List.ofFn_const 8 0

/-- C99 without the claim about the initial value of the address in the table's first row. -/
theorem C99_sequence_partial {n B : ℕ} {T : ℕ → Row F} {ops : List Acc} (h : Accepted n T) (hB : B + n * n ≤ P) (hB0 : 0 < B) (hs : Shows n T ops)
    (ht : ∀ o ∈ ops, o.time < B) (ho : ops.Pairwise Acc.Before) :
    ∃ init : LMem, (∀ a, ZeroInit a.2.1 → a ≠ addr (T 0) → init a = List.replicate 8 0) ∧ Consistent init ops :=
  covers_sequence h hB hB0 hs.covers (fun i hi hri => ht _ ((hs _).2 ⟨i, hi, hri, rfl⟩)) ho

/-- C99 in full for the tables whose first row is in a segment filled beforehand, as is the case when the first byte of the kernel's code, at the lowest
address, is in the table. -/
theorem C99_sequence {n B : ℕ} {T : ℕ → Row F} {ops : List Acc} (h : Accepted n T) (hB : B + n * n ≤ P) (hB0 : 0 < B) (hs : Shows n T ops)
    (ht : ∀ o ∈ ops, o.time < B) (ho : ops.Pairwise Acc.Before) (h0 : ¬ ZeroInit (T 0 ADDR_SEGMENT)) :
    ∃ init : LMem, (∀ a, ZeroInit a.2.1 → init a = List.replicate 8 0) ∧ Consistent init ops := by
  obtain ⟨init, hz, hr⟩ := C99_sequence_partial h hB hB0 hs ht ho
  refine ⟨init, fun a ha => hz a ha (fun e => h0 ?_), hr⟩
  rw [e] at ha; exact ha

/-- The operations of the rows `is`, if these are the real ones. -/
theorem shows_rows {n : ℕ} {T : ℕ → Row F} (is : List ℕ) (h : ∀ i < n, i ∈ is ↔ Real (T i)) (hlt : ∀ i ∈ is, i < n) :
    Shows n T (is.map (fun i => accOf (T i))) := by
  intro o
  rw [List.mem_map]
  constructor
  · rintro ⟨i, hi, rfl⟩
    exact ⟨i, hlt i hi, (h i (hlt i hi)).1 hi, rfl⟩
  · rintro ⟨i, hi, hr, rfl⟩
    exact ⟨i, (h i hi).2 hr, rfl⟩

instance (o o' : Acc) : Decidable (o.Before o') := by unfold Acc.Before; infer_instance

/-- The first row may read any value. -/
theorem C99_violated : ¬ C99_statement := by
  intro h
  obtain ⟨init, hz, hc⟩ := h 4 100 (mk firstReadRows) ([0].map (fun i => accOf (mk firstReadRows i))) firstRead_accepted (by decide) (by decide)
    (shows_rows _ (by decide +kernel) (by decide)) (by decide +kernel) (by decide +kernel)
  have := hc.1 (by decide +kernel)
  rw [hz _ (by decide +kernel)] at this
  exact absurd this (by decide +kernel)

/-- The hypotheses of `C99_sequence` are met by the table `honestRows`: its six operations in the order of time are those of a memory. -/
example : ∃ init : LMem, (∀ a, ZeroInit a.2.1 → init a = List.replicate 8 0) ∧
    Consistent init ([0, 1, 5, 2, 3, 4].map (fun i => accOf (mk honestRows i))) :=
  C99_sequence (B := 100) honest_accepted (by decide) (by decide) (shows_rows _ (by decide +kernel) (by decide)) (by decide +kernel) (by decide +kernel)
    (by decide +kernel)

/-- Among them are a write and a later read of the stack. -/
example : (accOf (mk honestRows 3)).isRead = 0 ∧ (accOf (mk honestRows 4)).isRead = 1 ∧ (accOf (mk honestRows 4)).addr = (accOf (mk honestRows 3)).addr ∧
    (accOf (mk honestRows 4)).value = [0, 256, 0, 0, 0, 0, 0, 0] := by decide +kernel

end Verif.Stark.Memory
