import Verif.Stark.Memory.Sound

/-! Concrete memory tables. -/

namespace Verif.Stark.Memory

open Finset

/-- A table given by the canonical values of its cells. -/
def mk (rows : List (List ℕ)) : ℕ → Row F := fun i c => (((rows.getD i []).getD c 0 : ℕ) : F)

/-- The total weight of a value in a column. -/
def total (n : ℕ) (col w : ℕ → F) (v : ℕ) : F := ((List.range n).map (fun i => if (col i).val = v then w i else 0)).sum

/-- The evaluation of a lookup on the values below `m`. -/
def checkLookup (n m : ℕ) (looking : List Looking) (table freq : ℕ → F) : Bool :=
  looking.all (fun l => (List.range n).all (fun i => decide ((l.col i).val < m) || decide ((l.filter i).val = 0))) &&
  (List.range n).all (fun i => decide ((table i).val < m) || decide ((freq i).val = 0)) &&
  (List.range m).all (fun v => decide (((looking.map (fun l => total n l.col l.filter v)).sum - total n table freq v).val = 0))

/-- The evaluation of the constraints of a row. -/
def checkConstraints (n i : ℕ) (cs : List (Constr F)) : Bool :=
  cs.all (fun c => (match c.on with
    | .always => false
    | .transition => decide (i + 1 = n)
    | .first => decide (i ≠ 0)
    | .last => decide (i + 1 ≠ n)) || decide (c.val.val = 0))

theorem total_eq {n : ℕ} {col w : ℕ → F} {v : ℕ} (hv : v < P) : total n col w v = ∑ i ∈ range n with col i = (v : F), w i := by
  unfold total
  rw [sum_filter]
  have hl : ∀ (f : ℕ → F) (m : ℕ), ((List.range m).map f).sum = ∑ i ∈ range m, f i := by
    intro f m
    induction m with
    | zero => simp
    | succ m ih => rw [List.range_succ, List.map_append, List.sum_append, ih, sum_range_succ]; simp
  rw [hl]
  refine sum_congr rfl (fun i _ => ?_)
  have : (col i).val = v ↔ col i = (v : F) := by
    constructor
    · intro h; rw [← h, ZMod.natCast_zmod_val]
    · intro h; rw [h, ZMod.val_natCast, Nat.mod_eq_of_lt hv]
  simp only [this]

theorem val_zero {x : F} (h : x.val = 0) : x = 0 := (ZMod.val_eq_zero x).1 h

theorem lookup_of_check {n m : ℕ} {looking : List Looking} {table freq : ℕ → F} (hm : m ≤ P) (h : checkLookup n m looking table freq = true) :
    LogUp n looking table freq := by
  unfold checkLookup at h
  rw [Bool.and_eq_true, Bool.and_eq_true] at h
  obtain ⟨⟨h1, h2⟩, h3⟩ := h
  have inl : ∀ x : F, x.val < m → x ∈ (List.range m).map (Nat.cast : ℕ → F) := fun x hx =>
    List.mem_map.2 ⟨x.val, List.mem_range.2 hx, by rw [ZMod.natCast_zmod_val]⟩
  refine .of_values ((List.range m).map Nat.cast) (fun l hl i hi => ?_) (fun i hi => ?_) (fun v hv => ?_)
  · have := List.all_eq_true.1 (List.all_eq_true.1 h1 l hl) i (List.mem_range.2 hi)
    rw [Bool.or_eq_true, decide_eq_true_eq, decide_eq_true_eq] at this
    exact this.imp (inl _) val_zero
  · have := List.all_eq_true.1 h2 i (List.mem_range.2 hi)
    rw [Bool.or_eq_true, decide_eq_true_eq, decide_eq_true_eq] at this
    exact this.imp (inl _) val_zero
  · obtain ⟨w, hw, rfl⟩ := List.mem_map.1 hv
    have hw' := List.mem_range.1 hw
    have := sub_eq_zero.1 (val_zero (of_decide_eq_true (List.all_eq_true.1 h3 w hw)))
    rw [total_eq (by omega)] at this
    rw [← this]
    congr 1
    refine List.map_congr_left (fun l _ => ?_)
    rw [total_eq (by omega)]

theorem accepted_of {n m : ℕ} {T : ℕ → Row F} (hm : m ≤ P) (h1 : ∀ i < n, checkConstraints n i (evalMemory (T i) (T ((i + 1) % n))) = true)
    (h2 : checkLookup n m (rangeLookups n T) (fun i => T i COUNTER) (fun i => T i FREQUENCIES) = true)
    (h3 : checkLookup n m (staleLookups T) (fun i => T i STALE_CONTEXTS) (fun i => T i STALE_FREQUENCIES) = true) : Accepted n T := by
  refine ⟨fun i hi c hc ha => ?_, lookup_of_check hm h2, lookup_of_check hm h3⟩
  have := List.all_eq_true.1 (h1 i hi) c hc
  rw [Bool.or_eq_true, decide_eq_true_eq] at this
  rcases this with h | h
  · revert h ha
    cases c.on <;> simp [When.applies] <;> intro a b <;> first | exact absurd a b | exact absurd b a
  · exact val_zero h

/-- Six operations: the code byte at the lowest address, initialised at time 0, then two writes and two reads of a stack slot, a read of an untouched slot, and two padding rows. -/
def honestRows : List (List ℕ) :=
  [[1, 0, 0, 0, 0, 0, 0, 5, 0, 0, 0, 0, 0, 0, 0, 0, 1, 0, 0, 18446744069414571979, 1122, 0, 0, 0, 0, 1, 1, 0, 0, 5],
   [1, 2, 9223372034707292161, 0, 0, 1, 0, 7, 0, 0, 0, 0, 0, 0, 0, 0, 0, 0, 0, 18446744069414571979, 1122, 0, 0, 0, 0, 0, 0, 2, 1, 0],
   [1, 4, 13835058052060938241, 1, 0, 1, 0, 7, 0, 0, 0, 0, 0, 0, 0, 0, 0, 0, 0, 18446744069414571979, 1122, 0, 0, 0, 0, 0, 0, 2, 2, 3],
   [1, 6, 15372286724512153601, 0, 0, 1, 0, 0, 256, 0, 0, 0, 0, 0, 0, 0, 0, 0, 0, 18446744069414571979, 1122, 0, 0, 0, 0, 0, 0, 3, 3, 1],
   [1, 9, 4099276459869907627, 1, 0, 1, 0, 0, 256, 0, 0, 0, 0, 0, 0, 0, 0, 1, 18446744069414571979, 18446744069414571979, 1122, 0, 0, 0, 0, 1, 1, 2, 4, 0],
   [1, 3, 12297829379609722881, 1, 0, 1, 3, 0, 0, 0, 0, 0, 0, 0, 0, 0, 0, 1, 18446744069414571979, 18446744069414571979, 1122, 0, 0, 0, 0, 1, 0, 0, 5, 0],
   [0, 4, 13835058052060938241, 1, 0, 1, 4, 0, 0, 0, 0, 0, 0, 0, 0, 0, 0, 0, 0, 18446744069414571979, 1122, 0, 0, 0, 0, 0, 0, 0, 6, 0],
   [0, 4, 13835058052060938241, 1, 0, 1, 4, 0, 0, 0, 0, 0, 0, 0, 0, 0, 0, 0, 0, 0, 0, 0, 0, 0, 0, 0, 0, 0, 7, 0]]

theorem honest_accepted : Accepted 8 (mk honestRows) :=
  accepted_of (m := 8) (by decide) (by decide +kernel) (by decide +kernel) (by decide +kernel)

/-- The first row is a read of a stack slot with value 9. -/
def firstReadRows : List (List ℕ) :=
  [[1, 1, 1, 1, 0, 1, 0, 9, 0, 0, 0, 0, 0, 0, 0, 0, 0, 1, 18446744069414571979, 18446744069414571979, 1122, 0, 0, 0, 0, 1, 1, 0, 0, 4],
   [0, 2, 9223372034707292161, 1, 0, 1, 1, 0, 0, 0, 0, 0, 0, 0, 0, 0, 0, 0, 0, 18446744069414571979, 1122, 0, 0, 0, 0, 0, 0, 0, 1, 0],
   [0, 2, 9223372034707292161, 1, 0, 1, 1, 0, 0, 0, 0, 0, 0, 0, 0, 0, 0, 0, 0, 18446744069414571979, 1122, 0, 0, 0, 0, 0, 0, 0, 2, 0],
   [0, 2, 9223372034707292161, 1, 0, 1, 1, 0, 0, 0, 0, 0, 0, 0, 0, 0, 0, 0, 0, 0, 0, 0, 0, 0, 0, 0, 0, 0, 3, 0]]

theorem firstRead_accepted : Accepted 4 (mk firstReadRows) :=
  accepted_of (m := 4) (by decide) (by decide +kernel) (by decide +kernel) (by decide +kernel)

/-- A stack slot is written and then read by a row that no other table sees. -/
def droppedRows : List (List ℕ) :=
  [[0, 1, 1, 1, 0, 0, 0, 0, 0, 0, 0, 0, 0, 0, 0, 0, 1, 0, 0, 18446744069414571979, 1122, 0, 0, 0, 0, 0, 0, 0, 0, 4],
   [1, 2, 9223372034707292161, 0, 0, 1, 0, 7, 0, 0, 0, 0, 0, 0, 0, 0, 0, 0, 0, 18446744069414571979, 1122, 0, 0, 0, 0, 0, 0, 1, 1, 1],
   [0, 3, 12297829379609722881, 1, 0, 1, 0, 7, 0, 0, 0, 0, 0, 0, 0, 0, 0, 1, 18446744069414571979, 18446744069414571979, 1122, 0, 0, 0, 0, 0, 0, 0, 2, 0],
   [0, 4, 13835058052060938241, 1, 0, 1, 1, 0, 0, 0, 0, 0, 0, 0, 0, 0, 0, 0, 0, 0, 0, 0, 0, 0, 0, 0, 0, 0, 3, 0]]

theorem dropped_accepted : Accepted 4 (mk droppedRows) :=
  accepted_of (m := 4) (by decide) (by decide +kernel) (by decide +kernel) (by decide +kernel)

/-- A code byte is written twice, and the first value is handed over. -/
def oldValueRows : List (List ℕ) :=
  [[1, 1, 1, 0, 0, 0, 0, 5, 0, 0, 0, 0, 0, 0, 0, 0, 0, 0, 0, 0, 1190, 0, 0, 0, 0, 0, 1, 1, 0, 3],
   [1, 2, 9223372034707292161, 0, 0, 0, 0, 6, 0, 0, 0, 0, 0, 0, 0, 0, 0, 1, 0, 0, 1190, 0, 0, 0, 0, 1, 0, 0, 1, 1],
   [0, 3, 12297829379609722881, 1, 0, 0, 1, 0, 0, 0, 0, 0, 0, 0, 0, 0, 0, 0, 0, 0, 1190, 0, 0, 0, 0, 0, 0, 0, 2, 0],
   [0, 3, 12297829379609722881, 1, 0, 0, 1, 0, 0, 0, 0, 0, 0, 0, 0, 0, 0, 0, 0, 0, 0, 0, 0, 0, 0, 0, 0, 0, 3, 0]]

theorem oldValue_accepted : Accepted 4 (mk oldValueRows) :=
  accepted_of (m := 4) (by decide) (by decide +kernel) (by decide +kernel) (by decide +kernel)

/-- A write in context 1, which is declared stale without having been pruned. -/
def fakeStaleRows : List (List ℕ) :=
  [[0, 1, 1, 1, 0, 0, 0, 0, 0, 0, 0, 0, 0, 0, 0, 1, 0, 0, 0, 18446744069414571979, 1122, 2, 0, 1, 0, 0, 0, 0, 0, 5],
   [1, 2, 9223372034707292161, 0, 1, 1, 0, 7, 0, 0, 0, 0, 0, 0, 0, 0, 0, 1, 18446744069414571979, 18446744069414571979, 1122, 0, 0, 0, 1, 0, 0, 0, 1, 0],
   [0, 3, 12297829379609722881, 1, 1, 1, 1, 0, 0, 0, 0, 0, 0, 0, 0, 0, 0, 0, 0, 18446744069414571979, 1122, 0, 0, 0, 0, 0, 0, 0, 2, 0],
   [0, 3, 12297829379609722881, 1, 1, 1, 1, 0, 0, 0, 0, 0, 0, 0, 0, 0, 0, 0, 0, 0, 0, 0, 0, 0, 0, 0, 0, 0, 3, 0]]

theorem fakeStale_accepted : Accepted 4 (mk fakeStaleRows) :=
  accepted_of (m := 4) (by decide) (by decide +kernel) (by decide +kernel) (by decide +kernel)

/-- A write in context 1, whose row is declared stale; a second row in the same context has the opposite weight, so that the lookup balances. -/
def cancelledRows : List (List ℕ) :=
  [[0, 1, 1, 1, 0, 0, 0, 0, 0, 0, 0, 0, 0, 0, 0, 1, 0, 0, 0, 18446744069414571979, 1122, 0, 0, 0, 0, 0, 0, 0, 0, 5],
   [1, 2, 9223372034707292161, 0, 1, 1, 0, 7, 0, 0, 0, 0, 0, 0, 0, 0, 0, 1, 18446744069414571979, 18446744069414571979, 1122, 0, 0, 0, 1, 0, 0, 0, 1, 0],
   [0, 3, 12297829379609722881, 1, 1, 1, 1, 0, 0, 0, 0, 0, 0, 0, 0, 0, 0, 0, 0, 18446744069414571979, 1122, 0, 0, 0, 18446744069414584320, 0, 0, 0, 2, 0],
   [0, 3, 12297829379609722881, 1, 1, 1, 1, 0, 0, 0, 0, 0, 0, 0, 0, 0, 0, 0, 0, 0, 0, 0, 0, 0, 0, 0, 0, 0, 3, 0]]

theorem cancelled_accepted : Accepted 4 (mk cancelledRows) :=
  accepted_of (m := 4) (by decide) (by decide +kernel) (by decide +kernel) (by decide +kernel)

end Verif.Stark.Memory
