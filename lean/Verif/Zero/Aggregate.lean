/-!
# Proving a block: segments, batches, aggregation (`zero/src/prover.rs`, `zero/src/ops.rs`) (C33, C62)

A proof is modelled by the way it was made (a term over the segments); the real proof is a function of it.  Proving may
fail for any reason: `fails` says which terms cannot be made.  What the runtime decides is a parameter of a run: the
order in which proofs arrive, the bracketing of `Directive::fold`, and, when a batch fails, which batches had
finished before.
-/
namespace Verif.Zero

/-! ## Model -/

/-- Proofs, by construction. `dummy` is a segment aggregated with a dummy; `zero/src/ops.rs:206-271, 290-352`. -/
inductive Pf (S : Type) where
  | seg (s : S)
  | segAgg (l r : Pf S)
  | dummy (l : Pf S)
  | batchAgg (l r : Pf S)
deriving DecidableEq

/-- Why a block proof fails. -/
inductive AggErr where
  | op
  | empty
  | notBatchAgg
deriving DecidableEq

/-- `SegmentAggregatableProof`. `zero/src/proof_types.rs:36-41`. -/
inductive SegP (S : Type) where
  | segment (p : Pf S)
  | agg (p : Pf S)

/-- `BatchAggregatableProof`. `zero/src/proof_types.rs:47-55`. -/
inductive BatchP (S : Type) where
  | segment (p : Pf S)
  | segmentAgg (p : Pf S)
  | batchAgg (p : Pf S)

/-- `proof_with_pvs`. `zero/src/proof_types.rs:58-63`. -/
def SegP.pf {S} : SegP S → Pf S
  | .segment p => p
  | .agg p => p

/-- `proof_with_pvs`. `zero/src/proof_types.rs:74-80`. -/
def BatchP.pf {S} : BatchP S → Pf S
  | .segment p => p
  | .segmentAgg p => p
  | .batchAgg p => p

/-- `From<SegmentAggregatableProof>`. `zero/src/proof_types.rs:93-100`. -/
def BatchP.ofSeg {S} : SegP S → BatchP S
  | .agg p => .segmentAgg p
  | .segment p => .segment p

section
variable {S : Type} (fails : Pf S → Bool)

/-- A proof system call. -/
def attempt (p : Pf S) : Except AggErr (Pf S) := if fails p then .error .op else .ok p

/-- `SegmentProof::execute`. `zero/src/ops.rs:33-66`. -/
def segProof (s : S) : Except AggErr (SegP S) := do return .segment (← attempt fails (.seg s))

/-- `SegmentAggProof::combine`. `zero/src/ops.rs:262-284`. -/
def segCombine (a b : SegP S) : Except AggErr (SegP S) := do return .agg (← attempt fails (.segAgg a.pf b.pf))

/-- A lone segment is aggregated with a dummy. `zero/src/ops.rs:296-321`. -/
def padSegment : BatchP S → Except AggErr (BatchP S)
  | .segment p => do return .segmentAgg (← attempt fails (.dummy p))
  | b => .ok b

/-- `BatchAggProof::combine`. `zero/src/ops.rs:307-363`. -/
def batchCombine (a b : BatchP S) : Except AggErr (BatchP S) := do
  let l ← padSegment fails a
  let r ← padSegment fails b
  return .batchAgg (← attempt fails (.batchAgg l.pf r.pf))

end

/-- A bracketing of a sequence. -/
inductive Shape where
  | one
  | node (l r : Shape)

def Shape.size : Shape → Nat
  | .one => 1
  | .node l r => l.size + r.size

/-- `Directive::fold` of `paladin`: neighbours are combined in some bracketing, in the order of the stream. The
bracketing is `sh`; the fold of nothing fails (`empty` is `unimplemented!`). -/
def foldShape {α} (op : α → α → Except AggErr α) : Shape → List α → Except AggErr α
  | .one, [x] => .ok x
  | .one, _ => .error .empty
  | .node l r, xs => do
    let a ← foldShape op l (xs.take l.size)
    let b ← foldShape op r (xs.drop l.size)
    op a b

/-- `sort_by(|(a, _), (b, _)| a.cmp(b))`: a stable sort by index. -/
def insertIdx {α} (x : Nat × α) : List (Nat × α) → List (Nat × α)
  | [] => [x]
  | y :: l => if x.1 ≤ y.1 then x :: y :: l else y :: insertIdx x l

def sortIdx {α} : List (Nat × α) → List (Nat × α)
  | [] => []
  | x :: l => insertIdx x (sortIdx l)

section
variable {S : Type} (fails : Pf S → Bool)

/-- What the segment tasks of a batch send: the index and proof of each segment whose proof succeeds. A failed segment
task sends nothing, and its error is dropped: `try_join_all(segment_proving_tasks).await?` only looks at the outer
result (whether the task could be joined). `zero/src/prover.rs:208-254`. -/
def sentSegments (segs : List S) : List (Nat × SegP S) :=
  segs.zipIdx.filterMap (fun x => (segProof fails x.1).toOption.map (fun p => (x.2, p)))

/-- The rest of a batch task, given the arrivals. `zero/src/prover.rs:255-284`. -/
def batchTask (arrived : List (Nat × SegP S)) (sh : Shape) : Except AggErr (BatchP S) :=
  match sortIdx arrived with
  | [x] => .ok (BatchP.ofSeg x.2)
  | l => do return BatchP.ofSeg (← foldShape (segCombine fails) sh (l.map (·.2)))

/-- The rest of a block, given the batch proofs that arrived. The errors of the batch tasks are dropped:
`let _ = try_join(..).await?` only looks at the outer results. `zero/src/prover.rs:304-330`. -/
def blockTask (arrived : List (Nat × BatchP S)) (sh : Shape) : Except AggErr (Pf S) := do
  let p ← foldShape (batchCombine fails) sh ((sortIdx arrived).map (·.2))
  match p with
  | .batchAgg p => .ok p
  | _ => .error .notBatchAgg

/-- How a batch ran: the order of arrival and the bracketing. -/
structure BatchSched (S : Type) where
  arrived : List (Nat × SegP S)
  shape : Shape

/-- A possible run of a batch: every proof sent arrives, in any order, and the fold has as many leaves. -/
def BatchSched.Of (b : BatchSched S) (segs : List S) : Prop :=
  b.arrived.Perm (sentSegments fails segs) ∧ (b.arrived ≠ [] → b.shape.size = b.arrived.length)

/-- What the batch tasks send. -/
def sentBatches (runs : List (BatchSched S)) : List (Nat × BatchP S) :=
  runs.zipIdx.filterMap (fun x => (batchTask fails x.1.arrived x.1.shape).toOption.map (fun p => (x.2, p)))

/-- How a block ran. -/
structure BlockSched (S : Type) where
  batches : List (BatchSched S)
  arrived : List (Nat × BatchP S)
  shape : Shape

/-- A possible run of a block. If no batch task fails, every batch proof arrives, in any order. As soon as one fails, the
others are dropped: any of the others may have arrived before. `zero/src/prover.rs:286-296`. -/
structure BlockSched.Of (r : BlockSched S) (batches : List (List S)) : Prop where
  len : r.batches.length = batches.length
  each : ∀ x ∈ r.batches.zip batches, x.1.Of fails x.2
  arrived : if ∀ b ∈ r.batches, (batchTask fails b.arrived b.shape).isOk then r.arrived.Perm (sentBatches fails r.batches)
    else ∃ m, List.Sublist m (sentBatches fails r.batches) ∧ r.arrived.Perm m
  shape : r.arrived ≠ [] → r.shape.size = r.arrived.length

/-- The aggregated proof of a block. -/
def proveBatches (r : BlockSched S) : Except AggErr (Pf S) := blockTask fails r.arrived r.shape

end

/-! ## Specification -/

/-- The segments a proof covers, from left to right. -/
def Pf.segs {S} : Pf S → List S
  | .seg s => [s]
  | .segAgg l r => l.segs ++ r.segs
  | .dummy l => l.segs
  | .batchAgg l r => l.segs ++ r.segs

/-- No segment proof fails. -/
def SegmentsProve {S} (fails : Pf S → Bool) (batches : List (List S)) : Prop :=
  ∀ b ∈ batches, ∀ s ∈ b, fails (.seg s) = false

/-! ## Sorting by index -/

theorem insertIdx_perm {α} (x : Nat × α) : ∀ l, (insertIdx x l).Perm (x :: l)
  | [] => .refl _
  | y :: l => by
    unfold insertIdx
    split
    · exact .refl _
    · exact (List.Perm.cons y (insertIdx_perm x l)).trans (.swap _ _ _)

theorem sortIdx_perm {α} : ∀ l : List (Nat × α), (sortIdx l).Perm l
  | [] => .refl _
  | x :: l => (insertIdx_perm x _).trans (.cons x (sortIdx_perm l))

theorem insertIdx_sorted {α} (x : Nat × α) : ∀ l : List (Nat × α), l.Pairwise (fun a b => a.1 ≤ b.1) →
    (insertIdx x l).Pairwise (fun a b => a.1 ≤ b.1)
  | [], _ => by simp [insertIdx]
  | y :: l, h => by
    rw [List.pairwise_cons] at h
    unfold insertIdx
    split
    · rename_i hxy
      refine List.pairwise_cons.2 ⟨fun z hz => ?_, List.pairwise_cons.2 h⟩
      rcases List.mem_cons.1 hz with rfl | hz
      · exact hxy
      · exact Nat.le_trans hxy (h.1 z hz)
    · rename_i hxy
      refine List.pairwise_cons.2 ⟨fun z hz => ?_, insertIdx_sorted x l h.2⟩
      rcases List.mem_cons.1 ((insertIdx_perm x l).mem_iff.1 hz) with rfl | hz
      · omega
      · exact h.1 z hz

theorem sortIdx_sorted {α} : ∀ l : List (Nat × α), (sortIdx l).Pairwise (fun a b => a.1 ≤ b.1)
  | [] => .nil
  | x :: l => insertIdx_sorted x _ (sortIdx_sorted l)

/-- A sequence with increasing indices is what sorting gives, whatever order it arrives in. -/
theorem sortIdx_eq {α} {l m : List (Nat × α)} (hp : l.Perm m) (hm : m.Pairwise (fun a b => a.1 < b.1)) : sortIdx l = m := by
  have h1 := (sortIdx_perm l).trans hp
  have h2 := sortIdx_sorted l
  revert h1 h2
  generalize sortIdx l = s
  clear hp l
  intro h1 h2
  induction m generalizing s with
  | nil => exact List.perm_nil.1 h1
  | cons x m ih =>
    match s, h1, h2 with
    | [], h1, _ => exact absurd h1.length_eq (by simp)
    | y :: s, h1, h2 =>
      rw [List.pairwise_cons] at hm h2
      have hxy : x = y := by
        rcases List.mem_cons.1 (h1.mem_iff.2 List.mem_cons_self) with h | h
        · exact h
        · rcases List.mem_cons.1 (h1.mem_iff.1 (List.mem_cons_self (a := y))) with h' | h'
          · exact h'.symm
          · have := h2.1 x h
            have := hm.1 y h'
            omega
      subst hxy
      rw [ih hm.2 s (h1.cons_inv) h2.2]

theorem filterMap_idx {α β} (f : α → Option β) : ∀ (l : List α) (n : Nat),
    ((l.zipIdx n).filterMap (fun x => (f x.1).map (fun p => (x.2, p)))).Pairwise (fun a b => a.1 < b.1) ∧
    ∀ y ∈ (l.zipIdx n).filterMap (fun x => (f x.1).map (fun p => (x.2, p))), n ≤ y.1
  | [], n => by simp
  | x :: l, n => by
    obtain ⟨h1, h2⟩ := filterMap_idx f l (n + 1)
    rw [List.zipIdx_cons, List.filterMap_cons]
    cases hx : f x with
    | none =>
      simp only [Option.map_none]
      exact ⟨h1, fun y hy => by have := h2 y hy; omega⟩
    | some p =>
      simp only [Option.map_some]
      refine ⟨List.pairwise_cons.2 ⟨fun y hy => by have := h2 y hy; simp only; omega, h1⟩, fun y hy => ?_⟩
      rcases List.mem_cons.1 hy with rfl | hy
      · exact Nat.le_refl _
      · have := h2 y hy; omega

theorem filterMap_snd {α β} (f : α → Option β) : ∀ (l : List α) (n : Nat),
    ((l.zipIdx n).filterMap (fun x => (f x.1).map (fun p => (x.2, p)))).map (·.2) = l.filterMap f
  | [], n => rfl
  | x :: l, n => by
    rw [List.zipIdx_cons, List.filterMap_cons, List.filterMap_cons]
    cases hx : f x with
    | none => simp only [Option.map_none]; exact filterMap_snd f l (n + 1)
    | some p => simp only [Option.map_some, List.map_cons, filterMap_snd f l (n + 1)]

/-! ## Folding -/

theorem bindE {α β} {x : Except AggErr α} {f : α → Except AggErr β} {b : β} (h : (x >>= f) = .ok b) :
    ∃ a, x = .ok a ∧ f a = .ok b := by
  cases x with
  | ok a => exact ⟨a, rfl, h⟩
  | error e => cases h

theorem shape_pos : ∀ s : Shape, 0 < s.size
  | .one => Nat.one_pos
  | .node l r => by have := shape_pos l; simp only [Shape.size]; omega

/-- Folding keeps the order, whatever the bracketing. -/
theorem foldShape_order {α σ} (op : α → α → Except AggErr α) (f : α → List σ)
    (hop : ∀ a b c, op a b = .ok c → f c = f a ++ f b) : ∀ (sh : Shape) (xs : List α) (c : α),
    sh.size = xs.length → foldShape op sh xs = .ok c → f c = xs.flatMap f
  | .one, xs, c, hs, h => by
    match xs, hs with
    | [x], _ => cases h; simp
  | .node l r, xs, c, hs, h => by
    simp only [Shape.size] at hs
    simp only [foldShape] at h
    obtain ⟨a, h1, h⟩ := bindE h
    obtain ⟨b, h2, h⟩ := bindE h
    rw [hop a b c h, foldShape_order op f hop l _ a (by rw [List.length_take]; omega) h1,
      foldShape_order op f hop r _ b (by rw [List.length_drop]; omega) h2, ← List.flatMap_append, List.take_append_drop]

/-- Folding succeeds if every combination does. -/
theorem foldShape_total {α} (op : α → α → Except AggErr α) (hop : ∀ a b, ∃ c, op a b = .ok c) : ∀ (sh : Shape) (xs : List α),
    sh.size = xs.length → ∃ c, foldShape op sh xs = .ok c
  | .one, xs, hs => by
    match xs, hs with
    | [x], _ => exact ⟨x, rfl⟩
  | .node l r, xs, hs => by
    simp only [Shape.size] at hs
    obtain ⟨a, h1⟩ := foldShape_total op hop l (xs.take l.size) (by rw [List.length_take]; omega)
    obtain ⟨b, h2⟩ := foldShape_total op hop r (xs.drop l.size) (by rw [List.length_drop]; omega)
    obtain ⟨c, h3⟩ := hop a b
    exact ⟨c, by simp only [foldShape, h1, h2, bind, Except.bind, h3]⟩

theorem attempt_ok {S} {fails : Pf S → Bool} {p q : Pf S} (h : attempt fails p = .ok q) : q = p := by
  unfold attempt at h
  split at h <;> cases h
  rfl

theorem segCombine_segs {S} {fails : Pf S → Bool} {a b c : SegP S} (h : segCombine fails a b = .ok c) :
    c.pf.segs = a.pf.segs ++ b.pf.segs := by
  obtain ⟨p, h1, h⟩ := bindE h
  cases h
  rw [attempt_ok h1]
  rfl

theorem padSegment_segs {S} {fails : Pf S → Bool} {a c : BatchP S} (h : padSegment fails a = .ok c) :
    c.pf.segs = a.pf.segs := by
  cases a with
  | segment p =>
    obtain ⟨q, h1, h⟩ := bindE h
    cases h
    rw [attempt_ok h1]
    rfl
  | segmentAgg => cases h; rfl
  | batchAgg => cases h; rfl

theorem batchCombine_segs {S} {fails : Pf S → Bool} {a b c : BatchP S} (h : batchCombine fails a b = .ok c) :
    c.pf.segs = a.pf.segs ++ b.pf.segs := by
  obtain ⟨l, h1, h⟩ := bindE h
  obtain ⟨r, h2, h⟩ := bindE h
  obtain ⟨p, h3, h⟩ := bindE h
  cases h
  rw [attempt_ok h3, ← padSegment_segs h1, ← padSegment_segs h2]
  rfl

theorem ofSeg_pf {S} (p : SegP S) : (BatchP.ofSeg p).pf = p.pf := by cases p <;> rfl

/-! ## Batches and blocks -/

section
variable {S : Type} {fails : Pf S → Bool}

/-- The segments whose proof succeeds. -/
def proved (fails : Pf S → Bool) (segs : List S) : List S := segs.filter (fun s => !fails (.seg s))

theorem segProof_some (s : S) : (segProof fails s).toOption = if fails (.seg s) then none else some (.segment (.seg s)) := by
  unfold segProof attempt
  split <;> rfl

theorem sent_segs (segs : List S) :
    ((sentSegments fails segs).map (·.2)).flatMap (fun p => p.pf.segs) = proved fails segs := by
  unfold sentSegments
  rw [filterMap_snd (fun s => (segProof fails s).toOption)]
  induction segs with
  | nil => rfl
  | cons s l ih =>
    rw [List.filterMap_cons, segProof_some, proved, List.filter_cons]
    cases h : fails (.seg s) with
    | true => simpa [proved] using ih
    | false =>
      simp only [Bool.false_eq_true, if_false, Bool.not_false, if_true, List.flatMap_cons]
      rw [ih]
      rfl

theorem batch_segs {b : BatchSched S} {segs : List S} (h : b.Of fails segs) {p : BatchP S}
    (hp : batchTask fails b.arrived b.shape = .ok p) : p.pf.segs = proved fails segs := by
  have hs := sortIdx_eq h.1 (filterMap_idx (fun s => (segProof fails s).toOption) segs 0).1
  change sortIdx b.arrived = sentSegments fails segs at hs
  have hl := h.1.length_eq
  rw [← sent_segs]
  unfold batchTask at hp
  rw [hs] at hp
  split at hp
  · rename_i x hx
    cases hp
    rw [hx, ofSeg_pf]
    simp
  · rename_i l hx
    obtain ⟨q, h1, hp⟩ := bindE hp
    cases hp
    rw [ofSeg_pf]
    by_cases hne : b.arrived = []
    · have : sentSegments fails segs = [] := by
        rw [hne] at hl; exact List.length_eq_zero_iff.1 hl.symm
      rw [this] at h1
      exfalso
      cases hsh : b.shape with
      | one => rw [hsh] at h1; cases h1
      | node l r =>
        rw [hsh] at h1
        have : ∀ sh : Shape, foldShape (segCombine fails) sh [] = .error .empty := by
          intro sh
          induction sh with
          | one => rfl
          | node l r ihl _ => simp only [foldShape, List.take_nil, ihl]; rfl
        rw [List.map_nil, this] at h1
        cases h1
    · exact foldShape_order (segCombine fails) (fun p => p.pf.segs) (fun _ _ _ h => segCombine_segs h) _ _ _
        (by rw [List.length_map, ← hl]; exact h.2 hne) h1

theorem foldShape_nil {α} (op : α → α → Except AggErr α) : ∀ sh : Shape, foldShape op sh [] = .error .empty
  | .one => rfl
  | .node l r => by simp only [foldShape, List.take_nil, foldShape_nil op l]; rfl

theorem sent_batches : ∀ (runs : List (BatchSched S)) (batches : List (List S)), runs.length = batches.length →
    (∀ x ∈ runs.zip batches, x.1.Of fails x.2) →
    let sent := (runs.filterMap (fun b => (batchTask fails b.arrived b.shape).toOption)).flatMap (fun p => p.pf.segs)
    sent.Sublist (batches.flatMap (proved fails)) ∧
    ((∀ b ∈ runs, (batchTask fails b.arrived b.shape).isOk) → sent = batches.flatMap (proved fails))
  | [], [], _, _ => by simp
  | b :: runs, segs :: batches, hl, h => by
    obtain ⟨h1, h2⟩ := sent_batches runs batches (by simpa using hl) (fun x hx => h x (List.mem_cons_of_mem _ hx))
    have hb : b.Of fails segs := h (b, segs) List.mem_cons_self
    simp only [List.filterMap_cons, List.flatMap_cons]
    cases hx : batchTask fails b.arrived b.shape with
    | error e =>
      refine ⟨h1.trans (List.sublist_append_right _ _), fun hall => ?_⟩
      have := hall b List.mem_cons_self
      rw [hx] at this
      cases this
    | ok p =>
      simp only [Except.toOption, List.flatMap_cons]
      rw [batch_segs hb hx]
      refine ⟨h1.append_left _, fun hall => ?_⟩
      have := h2 (fun b hb => hall b (List.mem_cons_of_mem _ hb))
      rw [← this]
      rfl

theorem sublist_flatMap {α β} (f : α → List β) {l m : List α} (h : l.Sublist m) : (l.flatMap f).Sublist (m.flatMap f) := by
  induction h with
  | slnil => simp
  | cons a _ ih => simp only [List.flatMap_cons]; exact ih.trans (List.sublist_append_right _ _)
  | cons_cons a _ ih => simp only [List.flatMap_cons]; exact ih.append_left _

theorem proved_sublist (batches : List (List S)) : (batches.flatMap (proved fails)).Sublist batches.flatten := by
  induction batches with
  | nil => simp
  | cons b l ih => simp only [List.flatMap_cons, List.flatten_cons]; exact List.Sublist.append List.filter_sublist ih

theorem proved_all {batches : List (List S)} (h : SegmentsProve fails batches) : batches.flatMap (proved fails) = batches.flatten := by
  induction batches with
  | nil => rfl
  | cons b l ih =>
    rw [List.flatMap_cons, List.flatten_cons, ih (fun b hb => h b (List.mem_cons_of_mem _ hb))]
    rw [proved, List.filter_eq_self.2]
    intro s hs
    rw [h b List.mem_cons_self s hs]; rfl

theorem block_segs {batches : List (List S)} {r : BlockSched S} (h : r.Of fails batches) :
    ∃ m, m.Sublist (sentBatches fails r.batches) ∧ sortIdx r.arrived = m ∧ r.arrived.length = m.length ∧
      ((∀ b ∈ r.batches, (batchTask fails b.arrived b.shape).isOk) → m = sentBatches fails r.batches) := by
  have hsort := (filterMap_idx (fun b : BatchSched S => (batchTask fails b.arrived b.shape).toOption) r.batches 0).1
  change (sentBatches fails r.batches).Pairwise _ at hsort
  by_cases hall : ∀ b ∈ r.batches, (batchTask fails b.arrived b.shape).isOk
  · have hp := h.arrived
    rw [if_pos hall] at hp
    exact ⟨_, List.Sublist.refl _, sortIdx_eq hp hsort, hp.length_eq, fun _ => rfl⟩
  · have hp := h.arrived
    rw [if_neg hall] at hp
    obtain ⟨m, hm, hp⟩ := hp
    exact ⟨m, hm, sortIdx_eq hp (hsort.sublist hm), hp.length_eq, fun h => absurd h hall⟩

theorem block_result {batches : List (List S)} {r : BlockSched S} (h : r.Of fails batches) {p : Pf S}
    (hp : proveBatches fails r = .ok p) : p.segs = ((sortIdx r.arrived).map (·.2)).flatMap (fun q => q.pf.segs) := by
  unfold proveBatches blockTask at hp
  obtain ⟨q, h1, hp⟩ := bindE hp
  have hl := (sortIdx_perm r.arrived).length_eq
  have hq : q.pf = p := by
    cases q <;> cases hp
    rfl
  rw [← hq]
  by_cases hne : r.arrived = []
  · rw [hne] at h1
    have : foldShape (batchCombine fails) r.shape [] = _ := h1
    rw [foldShape_nil] at this
    cases this
  · exact foldShape_order (batchCombine fails) (fun p => p.pf.segs) (fun _ _ _ h => batchCombine_segs h) _ _ _
      (by rw [List.length_map, hl]; exact h.shape hne) h1

/-- **C33, C62** (what always holds). Whatever the schedule and whatever fails, a block proof covers segments in the order
of the block, none twice, and only segments that were proved. -/
theorem C62_covered_partial {batches : List (List S)} {r : BlockSched S} (h : r.Of fails batches) {p : Pf S}
    (hp : proveBatches fails r = .ok p) : p.segs.Sublist (batches.flatMap (proved fails)) ∧ p.segs.Sublist batches.flatten := by
  obtain ⟨m, hm, hs, -, -⟩ := block_segs h
  have h1 := (sent_batches r.batches batches h.len h.each).1
  rw [← filterMap_snd (fun b : BatchSched S => (batchTask fails b.arrived b.shape).toOption) r.batches 0] at h1
  have h2 : p.segs.Sublist (batches.flatMap (proved fails)) := by
    rw [block_result h hp, hs]
    exact (sublist_flatMap _ (hm.map _)).trans h1
  exact ⟨h2, h2.trans (proved_sublist batches)⟩

/-- **C33**. If the segment proofs and the aggregations of the batches succeed, the block proof covers exactly the
segments of the block, in order, whatever the order of completion and the bracketing. -/
theorem C33_order {batches : List (List S)} {r : BlockSched S} (h : r.Of fails batches) {p : Pf S}
    (hp : proveBatches fails r = .ok p) (hs : SegmentsProve fails batches)
    (hb : ∀ b ∈ r.batches, (batchTask fails b.arrived b.shape).isOk) : p.segs = batches.flatten := by
  obtain ⟨m, -, hm, -, he⟩ := block_segs h
  have h1 := (sent_batches r.batches batches h.len h.each).2 hb
  rw [block_result h hp, hm, he hb, ← proved_all hs, ← h1]
  exact congrArg _ (filterMap_snd (fun b : BatchSched S => (batchTask fails b.arrived b.shape).toOption) r.batches 0)

theorem batchTask_total (hf : ∀ p, fails p = false) {b : BatchSched S} {segs : List S} (h : b.Of fails segs) (hne : segs ≠ []) :
    ∃ p, batchTask fails b.arrived b.shape = .ok p := by
  have hl := h.1.length_eq
  have hs : (sentSegments fails segs).length = segs.length := by
    have := congrArg List.length (filterMap_snd (fun s => (segProof fails s).toOption) segs 0)
    rw [List.length_map] at this
    unfold sentSegments
    rw [this]
    have h2 : ∀ s : S, (segProof fails s).toOption = some (.segment (.seg s)) := fun s => by rw [segProof_some, hf]; rfl
    rw [show (fun s => (segProof fails s).toOption) = fun s => some (SegP.segment (.seg s)) from funext h2]
    clear this hl h hne
    induction segs with
    | nil => rfl
    | cons s l ih => simp
  have hpos : 0 < b.arrived.length := by
    have := List.length_pos_iff.2 hne; omega
  have hop : ∀ x y : SegP S, ∃ c, segCombine fails x y = .ok c := fun x y =>
    ⟨.agg (.segAgg x.pf y.pf), by simp [segCombine, attempt, hf, bind, Except.bind, pure, Except.pure]⟩
  unfold batchTask
  split
  · exact ⟨_, rfl⟩
  · obtain ⟨c, hc⟩ := foldShape_total (segCombine fails) hop b.shape ((sortIdx b.arrived).map (·.2))
      (by rw [List.length_map, (sortIdx_perm _).length_eq]; exact h.2 (List.length_pos_iff.1 hpos))
    exact ⟨BatchP.ofSeg c, by simp only [hc, bind, Except.bind, pure, Except.pure]⟩

/-- **C33**. If no proof fails, every schedule of a block with at least two batches, none empty, ends in a block proof. -/
theorem C33_succeeds (hf : ∀ p, fails p = false) {batches : List (List S)} (h2 : 2 ≤ batches.length) (hne : ∀ b ∈ batches, b ≠ [])
    {r : BlockSched S} (h : r.Of fails batches) : ∃ p, proveBatches fails r = .ok p ∧ p.segs = batches.flatten := by
  have hb : ∀ b ∈ r.batches, (batchTask fails b.arrived b.shape).isOk := by
    intro b hb
    obtain ⟨i, hi, rfl⟩ := List.getElem_of_mem hb
    have hi' : i < batches.length := h.len ▸ hi
    have hm : (r.batches[i], batches[i]) ∈ r.batches.zip batches := by
      rw [← List.getElem_zip (h := by rw [List.length_zip]; omega)]
      exact List.getElem_mem _
    obtain ⟨p, hp⟩ := batchTask_total hf (h.each _ hm) (hne _ (List.getElem_mem _))
    simp only at hp
    rw [hp]; rfl
  have hop : ∀ x y : BatchP S, ∃ c, batchCombine fails x y = .ok (.batchAgg c) := by
    intro x y
    have hpad : ∀ x : BatchP S, ∃ c, padSegment fails x = .ok c := by
      intro x
      cases x with
      | segment p => exact ⟨.segmentAgg (.dummy p), by simp [padSegment, attempt, hf, bind, Except.bind, pure, Except.pure]⟩
      | segmentAgg p => exact ⟨_, rfl⟩
      | batchAgg p => exact ⟨_, rfl⟩
    obtain ⟨l, hl⟩ := hpad x
    obtain ⟨r, hr⟩ := hpad y
    exact ⟨.batchAgg l.pf r.pf, by simp [batchCombine, hl, hr, attempt, hf, bind, Except.bind, pure, Except.pure]⟩
  obtain ⟨m, -, hm, hlen, he⟩ := block_segs h
  have hsent : (sentBatches fails r.batches).length = batches.length := by
    have := congrArg List.length (filterMap_snd (fun b : BatchSched S => (batchTask fails b.arrived b.shape).toOption) r.batches 0)
    rw [List.length_map] at this
    unfold sentBatches
    rw [this, ← h.len]
    clear this hlen he hm m h hne h2
    generalize r.batches = l at hb
    induction l with
    | nil => rfl
    | cons b l ih =>
      have h1 := hb b List.mem_cons_self
      rw [List.filterMap_cons]
      cases hx : batchTask fails b.arrived b.shape with
      | error => rw [hx] at h1; cases h1
      | ok p => exact congrArg (· + 1) (ih (fun b hb' => hb b (List.mem_cons_of_mem _ hb')))
  have hlen2 : r.arrived.length = batches.length := by rw [hlen, he hb, hsent]
  have hsz := h.shape (List.length_pos_iff.1 (by omega))
  cases hsh : r.shape with
  | one => rw [hsh] at hsz; simp only [Shape.size] at hsz; omega
  | node a b =>
    rw [hsh] at hsz
    simp only [Shape.size] at hsz
    have hl : ((sortIdx r.arrived).map (·.2)).length = r.arrived.length := by rw [List.length_map, (sortIdx_perm _).length_eq]
    obtain ⟨x, hx⟩ := foldShape_total (batchCombine fails) (fun x y => ⟨_, (hop x y).choose_spec⟩) a
      (((sortIdx r.arrived).map (·.2)).take a.size) (by rw [List.length_take]; omega)
    obtain ⟨y, hy⟩ := foldShape_total (batchCombine fails) (fun x y => ⟨_, (hop x y).choose_spec⟩) b
      (((sortIdx r.arrived).map (·.2)).drop a.size) (by rw [List.length_drop]; omega)
    obtain ⟨c, hc⟩ := hop x y
    have hp : proveBatches fails r = .ok c := by
      unfold proveBatches blockTask
      rw [hsh]
      simp only [foldShape, hx, hy, bind, Except.bind, hc]
    exact ⟨c, hp, C33_order h hp (fun _ _ _ _ => hf _) hb⟩

/-- Combining with an absent left or right side. -/
def comb {V : Type} (f : V → V → V) : Option V → Option V → Option V
  | none, y => y
  | x, none => x
  | some x, some y => some (f x y)

theorem eval_segs {V : Type} (f : V → V → V) (assoc : ∀ x y z, f (f x y) z = f x (f y z)) (eval : Pf S → V)
    (h1 : ∀ l r, eval (.segAgg l r) = f (eval l) (eval r)) (h2 : ∀ l r, eval (.batchAgg l r) = f (eval l) (eval r))
    (h3 : ∀ l, eval (.dummy l) = eval l) : ∀ p : Pf S,
    some (eval p) = (p.segs.map (fun s => some (eval (.seg s)))).foldr (comb f) none := by
  have happ : ∀ (l m : List (Option V)), (∀ x ∈ l, x ≠ none) → (l ++ m).foldr (comb f) none = comb f (l.foldr (comb f) none) (m.foldr (comb f) none) := by
    intro l m hl
    induction l with
    | nil => rfl
    | cons x l ih =>
      rw [List.cons_append, List.foldr_cons, List.foldr_cons, ih (fun x hx => hl x (List.mem_cons_of_mem _ hx))]
      generalize l.foldr (comb f) none = a
      generalize m.foldr (comb f) none = b
      cases x <;> cases a <;> cases b <;> simp [comb, assoc]
  have hno : ∀ (l : List S), ∀ x ∈ l.map (fun s => some (eval (.seg s))), x ≠ none := by
    intro l x hx
    obtain ⟨s, -, rfl⟩ := List.mem_map.1 hx
    simp
  intro p
  induction p with
  | seg s => rfl
  | segAgg l r ihl ihr => rw [h1, Pf.segs, List.map_append, happ _ _ (hno _), ← ihl, ← ihr]; rfl
  | dummy l ih => rw [h3, ih]; rfl
  | batchAgg l r ihl ihr => rw [h2, Pf.segs, List.map_append, happ _ _ (hno _), ← ihl, ← ihr]; rfl

/-- **C33**. What is computed along the aggregation by an associative combination (the public values: the left ones before,
the right ones after) does not depend on the schedule: it is the combination of the segments in order. -/
theorem C33_schedule_independent {V : Type} (f : V → V → V) (assoc : ∀ x y z, f (f x y) z = f x (f y z)) (eval : Pf S → V)
    (h1 : ∀ l r, eval (.segAgg l r) = f (eval l) (eval r)) (h2 : ∀ l r, eval (.batchAgg l r) = f (eval l) (eval r))
    (h3 : ∀ l, eval (.dummy l) = eval l) (hf : ∀ p, fails p = false) {batches : List (List S)} (hl : 2 ≤ batches.length)
    (hne : ∀ b ∈ batches, b ≠ []) {r r' : BlockSched S} (h : r.Of fails batches) (h' : r'.Of fails batches) :
    ∃ p p', proveBatches fails r = .ok p ∧ proveBatches fails r' = .ok p' ∧ eval p = eval p' := by
  obtain ⟨p, hp, e⟩ := C33_succeeds hf hl hne h
  obtain ⟨p', hp', e'⟩ := C33_succeeds hf hl hne h'
  refine ⟨p, p', hp, hp', Option.some.inj ?_⟩
  rw [eval_segs f assoc eval h1 h2 h3, eval_segs f assoc eval h1 h2 h3, e, e']

end

/-- **C62**, in full: there is no block proof unless every segment was proved and is covered. -/
def C62_statement : Prop :=
  ∀ (S : Type) (fails : Pf S → Bool) (batches : List (List S)) (r : BlockSched S) (p : Pf S), r.Of fails batches →
    proveBatches fails r = .ok p → SegmentsProve fails batches ∧ p.segs = batches.flatten

/-- The proof of segment 1 fails, everything else succeeds. -/
def demoFails : Pf Nat → Bool := fun p => p == .seg 1

/-- Two batches, of two segments and one segment. The batches finish in reverse order. -/
def demoBlock : BlockSched Nat :=
  { batches := [⟨[(0, .segment (.seg 0))], .one⟩, ⟨[(0, .segment (.seg 2))], .one⟩]
    arrived := [(1, .segment (.seg 2)), (0, .segment (.seg 0))]
    shape := .node .one .one }

theorem demoBlock_of : demoBlock.Of demoFails [[0, 1], [2]] where
  len := rfl
  each := by
    intro x hx
    rcases List.mem_cons.1 hx with rfl | hx
    · exact ⟨.refl _, fun _ => rfl⟩
    · cases List.mem_singleton.1 hx
      exact ⟨.refl _, fun _ => rfl⟩
  arrived := by
    rw [if_pos (by intro b hb; simp only [demoBlock, List.mem_cons, List.not_mem_nil, or_false] at hb; rcases hb with rfl | rfl <;> rfl)]
    exact .swap _ _ _
  shape := fun _ => rfl

/-- C62 does not hold: a failed segment is left out of the block proof. -/
theorem C62_violated : ¬ C62_statement := by
  intro h
  have := h Nat demoFails [[0, 1], [2]] demoBlock (.batchAgg (.dummy (.seg 0)) (.dummy (.seg 2))) demoBlock_of rfl
  have := this.1 [0, 1] (by simp) 1 (by simp)
  cases this

/-- Two batches of two segments; everything arrives in reverse order. -/
example : ∃ r : BlockSched Nat, r.Of (fun _ => false) [[0, 1], [2, 3]] ∧
    proveBatches (fun _ => false) r = .ok (.batchAgg (.segAgg (.seg 0) (.seg 1)) (.segAgg (.seg 2) (.seg 3))) := by
  refine ⟨{ batches := [⟨[(1, .segment (.seg 1)), (0, .segment (.seg 0))], .node .one .one⟩,
                        ⟨[(1, .segment (.seg 3)), (0, .segment (.seg 2))], .node .one .one⟩]
            arrived := [(1, .segmentAgg (.segAgg (.seg 2) (.seg 3))), (0, .segmentAgg (.segAgg (.seg 0) (.seg 1)))]
            shape := .node .one .one }, ⟨rfl, ?_, ?_, fun _ => rfl⟩, rfl⟩
  · intro x hx
    rcases List.mem_cons.1 hx with rfl | hx
    · exact ⟨.swap _ _ _, fun _ => rfl⟩
    · cases List.mem_singleton.1 hx
      exact ⟨.swap _ _ _, fun _ => rfl⟩
  · rw [if_pos (by intro b hb; simp only [List.mem_cons, List.not_mem_nil, or_false] at hb; rcases hb with rfl | rfl <;> rfl)]
    exact .swap _ _ _

end Verif.Zero
