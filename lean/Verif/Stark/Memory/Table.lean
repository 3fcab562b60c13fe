import Verif.Stark.Lookup

/-! The memory table. `evm_arithmetization/src/memory/memory_stark.rs`, `memory/columns.rs`. -/

namespace Verif.Stark.Memory

open Finset

variable {R : Type} [CommRing R]

/-- The columns, in order. `memory/columns.rs:13-95`. -/
abbrev FILTER : ℕ := 0
abbrev TIMESTAMP : ℕ := 1
abbrev TIMESTAMP_INV : ℕ := 2
abbrev IS_READ : ℕ := 3
abbrev ADDR_CONTEXT : ℕ := 4
abbrev ADDR_SEGMENT : ℕ := 5
abbrev ADDR_VIRTUAL : ℕ := 6
abbrev VALUE : ℕ := 7
abbrev CONTEXT_FIRST_CHANGE : ℕ := 15
abbrev SEGMENT_FIRST_CHANGE : ℕ := 16
abbrev VIRTUAL_FIRST_CHANGE : ℕ := 17
abbrev INITIALIZE_AUX : ℕ := 18
abbrev PREINITIALIZED : ℕ := 19
abbrev PREINITIALIZED_AUX : ℕ := 20
abbrev STALE_CONTEXTS : ℕ := 21
abbrev IS_PRUNED : ℕ := 22
abbrev STALE_FREQUENCIES : ℕ := 23
abbrev IS_STALE : ℕ := 24
abbrev MAYBE_IN_MEM_AFTER : ℕ := 25
abbrev MEM_AFTER_FILTER : ℕ := 26
abbrev RANGE_CHECK : ℕ := 27
abbrev COUNTER : ℕ := 28
abbrev FREQUENCIES : ℕ := 29

/-- The unscaled numbers of the segments that are not zero-initialised. `memory/segments.rs:16-97`. -/
abbrev CODE : ℕ := 0
abbrev TRIE_DATA : ℕ := 12
abbrev ACCOUNTS_LINKED_LIST : ℕ := 34
abbrev STORAGE_LINKED_LIST : ℕ := 35

/-- `address_unchanged`. `memory_stark.rs:525-526`. -/
def unchanged (lv : Row R) : R := 1 - lv CONTEXT_FIRST_CHANGE - lv SEGMENT_FIRST_CHANGE - lv VIRTUAL_FIRST_CHANGE

/-- The constraints that order the rows. `memory_stark.rs:513-567`. -/
def evalOrder (lv nv : Row R) : List (Constr R) :=
  [⟨.always, lv FILTER * (lv FILTER - 1)⟩,
   ⟨.always, (1 - lv FILTER) * (1 - lv IS_READ)⟩,
   ⟨.always, lv CONTEXT_FIRST_CHANGE * (1 - lv CONTEXT_FIRST_CHANGE)⟩,
   ⟨.always, lv SEGMENT_FIRST_CHANGE * (1 - lv SEGMENT_FIRST_CHANGE)⟩,
   ⟨.always, lv VIRTUAL_FIRST_CHANGE * (1 - lv VIRTUAL_FIRST_CHANGE)⟩,
   ⟨.always, unchanged lv * (1 - unchanged lv)⟩,
   ⟨.transition, lv SEGMENT_FIRST_CHANGE * (nv ADDR_CONTEXT - lv ADDR_CONTEXT)⟩,
   ⟨.transition, lv VIRTUAL_FIRST_CHANGE * (nv ADDR_CONTEXT - lv ADDR_CONTEXT)⟩,
   ⟨.transition, lv VIRTUAL_FIRST_CHANGE * (nv ADDR_SEGMENT - lv ADDR_SEGMENT)⟩,
   ⟨.transition, unchanged lv * (nv ADDR_CONTEXT - lv ADDR_CONTEXT)⟩,
   ⟨.transition, unchanged lv * (nv ADDR_SEGMENT - lv ADDR_SEGMENT)⟩,
   ⟨.transition, unchanged lv * (nv ADDR_VIRTUAL - lv ADDR_VIRTUAL)⟩,
   ⟨.transition, lv RANGE_CHECK -
     (lv CONTEXT_FIRST_CHANGE * (nv ADDR_CONTEXT - lv ADDR_CONTEXT - 1) +
      lv SEGMENT_FIRST_CHANGE * (nv ADDR_SEGMENT - lv ADDR_SEGMENT - 1) +
      lv VIRTUAL_FIRST_CHANGE * (nv ADDR_VIRTUAL - lv ADDR_VIRTUAL - 1) +
      unchanged lv * (nv TIMESTAMP - lv TIMESTAMP))⟩]

/-- The constraints on values. `memory_stark.rs:569-607`. -/
def evalValues (lv nv : Row R) : List (Constr R) :=
  [⟨.transition, lv PREINITIALIZED_AUX - (nv ADDR_SEGMENT - (ACCOUNTS_LINKED_LIST : R)) * (nv ADDR_SEGMENT - (STORAGE_LINKED_LIST : R))⟩,
   ⟨.transition, lv PREINITIALIZED - (nv ADDR_SEGMENT - (CODE : R)) * (nv ADDR_SEGMENT - (TRIE_DATA : R)) * lv PREINITIALIZED_AUX⟩,
   ⟨.transition, lv INITIALIZE_AUX - lv PREINITIALIZED * (1 - unchanged lv) * nv IS_READ⟩] ++
  (List.range 8).flatMap (fun i =>
    [⟨.transition, nv IS_READ * unchanged lv * (nv (VALUE + i) - lv (VALUE + i))⟩,
     ⟨.transition, lv INITIALIZE_AUX * nv (VALUE + i)⟩])

/-- The constraints on the selection of final values. `memory_stark.rs:609-626`. -/
def evalAfter (lv _nv : Row R) : List (Constr R) :=
  [⟨.transition, lv MAYBE_IN_MEM_AFTER + lv FILTER * (1 - unchanged lv) * (lv IS_STALE - 1)⟩,
   ⟨.always, lv MEM_AFTER_FILTER * (lv MEM_AFTER_FILTER - 1)⟩] ++
  (List.range 8).map (fun i => ⟨.always, (lv MEM_AFTER_FILTER - lv MAYBE_IN_MEM_AFTER) * lv PREINITIALIZED * lv (VALUE + i)⟩)

/-- The constraints on the inverse of the timestamp and the counter. `memory_stark.rs:628-640`. -/
def evalCounter (lv nv : Row R) : List (Constr R) :=
  [⟨.always, lv TIMESTAMP * (lv TIMESTAMP * lv TIMESTAMP_INV - 1)⟩,
   ⟨.first, lv COUNTER⟩,
   ⟨.transition, nv COUNTER - lv COUNTER - 1⟩]

/-- `MemoryStark::eval_packed_generic`. `memory_stark.rs:474-626`. -/
def evalMemory (lv nv : Row R) : List (Constr R) := evalOrder lv nv ++ evalValues lv nv ++ evalAfter lv nv ++ evalCounter lv nv

/-- The range checks: the column `range_check` on every row, and the next row's virtual address where the context or the segment
changes. `memory_stark.rs:862-877`. -/
def rangeLookups (n : ℕ) (T : ℕ → Row F) : List Looking :=
  [⟨fun i => T i RANGE_CHECK, fun _ => 1⟩,
   ⟨fun i => T ((i + 1) % n) ADDR_VIRTUAL, fun i => T i CONTEXT_FIRST_CHANGE + T i SEGMENT_FIRST_CHANGE⟩]

/-- The lookup of the contexts of stale rows. `memory_stark.rs:878-888`. -/
def staleLookups (T : ℕ → Row F) : List Looking := [⟨fun i => T i ADDR_CONTEXT + 1, fun i => T i IS_STALE⟩]

/-- A memory table the verifier accepts: its constraints and its two lookups hold. The cross-table lookups, which tie its rows to
the other tables, are not part of it. -/
structure Accepted (n : ℕ) (T : ℕ → Row F) : Prop where
  constraints : Satisfies evalMemory n T
  range : LogUp n (rangeLookups n T) (fun i => T i COUNTER) (fun i => T i FREQUENCIES)
  stale : LogUp n (staleLookups T) (fun i => T i STALE_CONTEXTS) (fun i => T i STALE_FREQUENCIES)

/-! ### What a row says -/

/-- The address of an operation: context, segment and offset. -/
def addr (r : Row F) : F × F × F := (r ADDR_CONTEXT, r ADDR_SEGMENT, r ADDR_VIRTUAL)

/-- Its value: eight words. -/
def value (r : Row F) : Fin 8 → F := fun k => r (VALUE + k)

/-- Its time. -/
def time (r : Row F) : ℕ := (r TIMESTAMP).val

/-- The row is visible to the other tables. `ctl_filter`, `memory_stark.rs:49-51`. -/
def Real (r : Row F) : Prop := r FILTER = 1

/-- The operation is a write, otherwise a read. -/
def IsWrite (r : Row F) : Prop := r IS_READ = 0

/-- The segment is zero before its first write. (Specification: all segments but code, trie data and the two linked lists.) -/
def ZeroInit (seg : F) : Prop := seg ≠ 0 ∧ seg ≠ 12 ∧ seg ≠ 34 ∧ seg ≠ 35

/-- The row is handed over to the next segment's initial memory. `ctl_filter_mem_after`, `memory_stark.rs:92-97`. -/
def HandedOver (r : Row F) : Prop := r MEM_AFTER_FILTER = 1

end Verif.Stark.Memory
