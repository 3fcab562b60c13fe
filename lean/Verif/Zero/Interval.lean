/-!
# Block intervals (`zero/src/block_interval.rs`) (C30)

Block numbers are `u64`, here `Nat`; `inc` is the checked addition. In a release build without overflow checks the sum
wraps to 0 instead.
-/
namespace Verif.Zero

/-! ## Model -/

/-- Why an interval is refused. -/
inductive IntervalErr where
  | badNumber
  | rpc
  | notFound
  | badRange
  | unbounded
  | bounded
  | overflow
deriving DecidableEq

/-- `BlockId` of `alloy`: a number, a tag such as `latest`, or a hash. -/
inductive BlockId (H : Type) where
  | number (n : Nat)
  | tag (t : Nat)
  | hash (h : H)
deriving DecidableEq

/-- `get_block_by_id` for a hash: the number of the block, nothing, or a failed request.
`zero/src/block_interval.rs:15-18`. -/
abbrev Provider (H : Type) := H → Except Unit (Option Nat)

/-- `BlockInterval`. `zero/src/block_interval.rs:57-67`. -/
inductive Interval where
  | single (n : Nat)
  | range (start stop : Nat)
  | followFrom (start : Nat)
deriving DecidableEq

/-- `n + 1` of `u64`. -/
def inc (n : Nat) : Except IntervalErr Nat := if n + 1 < 2 ^ 64 then .ok (n + 1) else .error .overflow

/-- `block_to_num`. `zero/src/block_interval.rs:176-201`. -/
def blockToNum {H : Type} (P : Provider H) : BlockId H → Except IntervalErr Nat
  | .number n => .ok n
  | .tag _ => .error .badNumber
  | .hash h =>
    match P h with
    | .error () => .error .rpc
    | .ok none => .error .notFound
    | .ok (some n) => .ok n

/-- `BlockInterval::new`. `zero/src/block_interval.rs:80-108`. -/
def newInterval {H : Type} [DecidableEq H] (P : Provider H) (start : BlockId H) (stop : Option (BlockId H)) :
    Except IntervalErr Interval := do
  let s ← blockToNum P start
  match stop with
  | some e =>
    if e = start then .ok (.single s)
    else do
      let e ← blockToNum P e
      if e ≤ s then .error .badRange
      else do
        let e ← inc e
        return .range s e
  | none => .ok (.followFrom s)

/-- `range.last_mut().map(|it| it.1 = true)`. -/
def flagLast : List (Nat × Bool) → List (Nat × Bool)
  | [] => []
  | [x] => [(x.1, true)]
  | x :: l => x :: flagLast l

/-- `into_bounded_stream`: the items of the stream. `zero/src/block_interval.rs:112-129`. -/
def boundedStream : Interval → Except IntervalErr (List (Nat × Bool))
  | .single n => do
    let e ← inc n
    return (List.range' n (e - n)).map (fun it => (it, true))
  | .range s e => .ok (flagLast ((List.range' s (e - s)).map (fun it => (it, false))))
  | .followFrom _ => .error .unbounded

/-- `get_start_block`. `zero/src/block_interval.rs:132-138`. -/
def startBlock : Interval → Nat
  | .single n => n
  | .range s _ => s
  | .followFrom s => s

/-- The loop of `into_unbounded_stream`: `latest` are the answers to the requests for the latest block number.
`zero/src/block_interval.rs:150-170`. -/
def follow (current : Nat) : List Nat → List (Nat × Bool)
  | [] => []
  | last :: latest =>
    if current < last then (current + 1, false) :: follow (current + 1) latest
    else follow current latest

/-- `into_unbounded_stream`: the items of the stream after the given answers. `zero/src/block_interval.rs:142-173`. -/
def unboundedStream (i : Interval) (latest : List Nat) : Except IntervalErr (List (Nat × Bool)) :=
  match i with
  | .followFrom s => .ok ((s, false) :: follow s latest)
  | _ => .error .bounded

/-! ## Specification -/

/-- `l` is the blocks from `s` to `e` in order, the last one flagged. -/
def Enumerates (s e : Nat) (l : List (Nat × Bool)) : Prop :=
  l.map Prod.fst = List.range' s (e + 1 - s) ∧ ∀ x, x ∈ l → (x.2 = true ↔ x.1 = e)

/-- The block an id stands for. -/
def Denotes {H : Type} (P : Provider H) (id : BlockId H) (n : Nat) : Prop :=
  match id with
  | .number m => m = n
  | .tag _ => False
  | .hash h => P h = .ok (some n)

/-! ## Proofs -/

theorem blockToNum_ok {H : Type} (P : Provider H) (id : BlockId H) (n : Nat) : blockToNum P id = .ok n ↔ Denotes P id n := by
  cases id with
  | number m => simp [blockToNum, Denotes]
  | tag t => simp [blockToNum, Denotes]
  | hash h =>
    simp only [blockToNum, Denotes]
    rcases P h with (e | _ | m)
    · cases e; simp
    · simp
    · simp

theorem flagLast_fst (l : List (Nat × Bool)) : (flagLast l).map Prod.fst = l.map Prod.fst := by
  induction l with
  | nil => rfl
  | cons x l ih =>
    cases l with
    | nil => rfl
    | cons y l => rw [flagLast, List.map_cons, ih, List.map_cons] <;> simp

theorem flagLast_mem (s k : Nat) {x : Nat × Bool} (h : x ∈ flagLast ((List.range' s k).map (fun it => (it, false)))) :
    (x.2 = true ↔ x.1 = s + k - 1) ∧ s ≤ x.1 ∧ x.1 < s + k := by
  induction k generalizing s with
  | zero => cases h
  | succ k ih =>
    cases k with
    | zero =>
      simp [flagLast] at h
      subst h
      simp
    | succ k =>
      rw [List.range'_succ, List.map_cons, List.range'_succ, List.map_cons, flagLast] at h
      · rcases List.mem_cons.1 h with rfl | h
        · simp
        · have := ih (s + 1) (by rw [List.range'_succ, List.map_cons]; exact h)
          constructor
          · rw [this.1]; omega
          · omega
      · simp

theorem enumerates_range {s e : Nat} (h : s ≤ e) : Enumerates s e (flagLast ((List.range' s (e + 1 - s)).map (fun it => (it, false)))) := by
  constructor
  · rw [flagLast_fst, List.map_map]
    simp [Function.comp_def]
  · intro x hx
    have := (flagLast_mem s (e + 1 - s) hx).1
    rw [this]
    omega

/-- **C30**, in full: the interval between two blocks, however they are named, is enumerated. -/
def C30_statement : Prop :=
  ∀ (H : Type) [DecidableEq H] (P : Provider H) (start stop : BlockId H) (s e : Nat),
    Denotes P start s → Denotes P stop e → e < 2 ^ 64 →
    (s ≤ e → ∃ i l, newInterval P start (some stop) = .ok i ∧ boundedStream i = .ok l ∧ Enumerates s e l) ∧
    (e < s → ∃ err, newInterval P start (some stop) = .error err)

/-- What holds of C30: the last block number is not `2^64 - 1`, and if both ends are the same block, they are given in
the same form. -/
theorem C30_intervals_partial {H : Type} [DecidableEq H] (P : Provider H) (start stop : BlockId H) (s e : Nat)
    (hs : Denotes P start s) (he : Denotes P stop e) (hmax : e + 1 < 2 ^ 64) (hsame : s = e → start = stop) :
    (s ≤ e → ∃ i l, newInterval P start (some stop) = .ok i ∧ boundedStream i = .ok l ∧ Enumerates s e l ∧ startBlock i = s) ∧
    (e < s → ∃ err, newInterval P start (some stop) = .error err) := by
  have h1 := (blockToNum_ok P start s).2 hs
  have h2 := (blockToNum_ok P stop e).2 he
  have hi : inc e = .ok (e + 1) := by rw [inc, if_pos hmax]
  constructor
  · intro hle
    by_cases heq : s = e
    · have hst := hsame heq
      subst heq hst
      refine ⟨.single s, [(s, true)], ?_, ?_, ?_, rfl⟩
      · simp [newInterval, h1]; rfl
      · simp only [boundedStream, hi, bind, Except.bind, Nat.add_sub_cancel_left]; rfl
      · simp [Enumerates]
    · have hne : stop ≠ start := by
        rintro rfl
        rw [h1] at h2
        exact heq (Except.ok.inj h2)
      refine ⟨.range s (e + 1), flagLast ((List.range' s (e + 1 - s)).map (fun it => (it, false))), ?_, ?_,
        enumerates_range hle, rfl⟩
      · simp only [newInterval, h1, bind, Except.bind, if_neg hne, h2]
        rw [if_neg (by omega), hi]
        rfl
      · rfl
  · intro hlt
    have hne : stop ≠ start := by
      rintro rfl
      rw [h1] at h2
      have := Except.ok.inj h2
      omega
    refine ⟨.badRange, ?_⟩
    simp only [newInterval, h1, bind, Except.bind, if_neg hne, h2]
    rw [if_pos (by omega)]

/-- C30 does not hold in full: a block named by its number and by its hash is refused as an interval. -/
theorem C30_violated : ¬ C30_statement := by
  intro h
  have h1 := (h Unit (fun _ => .ok (some 5)) (.number 5) (.hash ()) 5 5 rfl rfl (by omega)).1 (by omega)
  obtain ⟨i, l, h2, _⟩ := h1
  have h3 : newInterval (fun _ : Unit => .ok (some 5)) (.number 5) (some (.hash ())) = .error .badRange := rfl
  rw [h3] at h2
  cases h2

/-- Non-vacuity: an interval from a number to a hash. -/
example : ∃ i, newInterval (H := Nat) (fun h => .ok (some (h + 10))) (.number 8) (some (.hash 0)) = .ok i ∧
    boundedStream i = .ok [(8, false), (9, false), (10, true)] := ⟨_, rfl, rfl⟩
example : Denotes (H := Nat) (fun h => .ok (some (h + 10))) (.hash 0) 10 := rfl

/-- Intervals with an end that cannot be resolved are refused. -/
theorem C30_unresolved {H : Type} [DecidableEq H] (P : Provider H) (start : BlockId H) (stop : Option (BlockId H))
    (h : (∀ n, ¬ Denotes P start n) ∨ (∃ e, stop = some e ∧ ∀ n, ¬ Denotes P e n)) :
    ∃ err, newInterval P start stop = .error err := by
  have key : ∀ id, (∀ n, ¬ Denotes P id n) → ∃ err, blockToNum P id = .error err := by
    intro id hid
    cases hb : blockToNum P id with
    | error err => exact ⟨err, rfl⟩
    | ok n => exact absurd ((blockToNum_ok P id n).1 hb) (hid n)
  cases hb : blockToNum P start with
  | error err => exact ⟨err, by simp [newInterval, hb, bind, Except.bind]⟩
  | ok s =>
    rcases h with h | ⟨e, rfl, h⟩
    · exact absurd ((blockToNum_ok P start s).1 hb) (h s)
    · have hne : e ≠ start := by
        rintro rfl
        exact h s ((blockToNum_ok P e s).1 hb)
      obtain ⟨err, he⟩ := key e h
      exact ⟨err, by simp [newInterval, hb, bind, Except.bind, if_neg hne, he]⟩

example : ∀ n, ¬ Denotes (H := Nat) (fun _ => .ok none) (.hash 3) n := fun _ h => by cases h

theorem follow_spec (current : Nat) (latest : List Nat) :
    (∃ k, (follow current latest).map Prod.fst = List.range' (current + 1) k) ∧
    (∀ x, x ∈ follow current latest → x.2 = false ∧ ∃ m, m ∈ latest ∧ x.1 ≤ m) ∧
    (∀ n, current < n → n ≤ current + latest.length → (∀ m, m ∈ latest → n ≤ m) → n ∈ (follow current latest).map Prod.fst) := by
  induction latest generalizing current with
  | nil => exact ⟨⟨0, rfl⟩, by simp [follow], by intro n h1 h2; simp at h2; omega⟩
  | cons m l ih =>
    rw [follow]
    split
    · rename_i h
      obtain ⟨⟨k, hk⟩, h2, h3⟩ := ih (current + 1)
      refine ⟨⟨k + 1, ?_⟩, ?_, ?_⟩
      · rw [List.map_cons, hk, List.range'_succ]
      · intro x hx
        rcases List.mem_cons.1 hx with rfl | hx
        · exact ⟨rfl, m, List.mem_cons_self, h⟩
        · obtain ⟨h4, m', hm, h5⟩ := h2 x hx
          exact ⟨h4, m', List.mem_cons_of_mem _ hm, h5⟩
      · intro n h4 h5 h6
        by_cases hn : n = current + 1
        · subst hn; exact List.mem_cons_self
        · exact List.mem_cons_of_mem _ (h3 n (by omega) (by simp at h5; omega) (fun m' hm => h6 m' (List.mem_cons_of_mem _ hm)))
    · rename_i h
      obtain ⟨⟨k, hk⟩, h2, h3⟩ := ih current
      refine ⟨⟨k, hk⟩, ?_, ?_⟩
      · intro x hx
        obtain ⟨h4, m', hm, h5⟩ := h2 x hx
        exact ⟨h4, m', List.mem_cons_of_mem _ hm, h5⟩
      · intro n h4 h5 h6
        have := h6 m List.mem_cons_self
        omega

/-- **C30**, following the chain: whatever the node reports as its latest block, the stream is the blocks from the
start in order without a gap, none flagged as last, each but the first already reported; and each block that is
reported long enough is streamed. -/
theorem C30_follow (s : Nat) (latest : List Nat) :
    ∃ l, unboundedStream (.followFrom s) latest = .ok l ∧
      (∃ k, l.map Prod.fst = List.range' s (k + 1)) ∧ (∀ x, x ∈ l → x.2 = false) ∧
      (∀ x, x ∈ l → x.1 ≠ s → ∃ m, m ∈ latest ∧ x.1 ≤ m) ∧
      (∀ n, s ≤ n → n ≤ s + latest.length → (∀ m, m ∈ latest → n ≤ m) → n ∈ l.map Prod.fst) := by
  obtain ⟨⟨k, hk⟩, h2, h3⟩ := follow_spec s latest
  refine ⟨_, rfl, ⟨k, ?_⟩, ?_, ?_, ?_⟩
  · rw [List.map_cons, hk, List.range'_succ]
  · intro x hx
    rcases List.mem_cons.1 hx with rfl | hx
    · rfl
    · exact (h2 x hx).1
  · intro x hx hne
    rcases List.mem_cons.1 hx with rfl | hx
    · exact absurd rfl hne
    · exact (h2 x hx).2
  · intro n h4 h5 h6
    by_cases hn : n = s
    · subst hn; exact List.mem_cons_self
    · exact List.mem_cons_of_mem _ (h3 n (by omega) h5 h6)

example : unboundedStream (.followFrom 5) [5, 7, 7, 7, 8] = .ok [(5, false), (6, false), (7, false), (8, false)] := rfl

end Verif.Zero
