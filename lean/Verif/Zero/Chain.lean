/-!
# Proving a sequence of blocks (`zero/src/prover.rs`, `prove`) (C34)

A transition system: one state per moment, one step per action of one task, steps in any order.  A crash or an abort of
the tasks (when `prove` returns an error) is a run that stops, so what holds in every reachable state holds after it.
-/
namespace Verif.Zero.Chain

/-! ## Model -/

/-- `ProverConfig`. `zero/src/prover.rs:74-84`. -/
structure Cfg where
  testOnly : Bool
  keep : Bool
  batchSize : Nat
  pool : Nat

/-- Where the task of a block is. -/
inductive Phase (P : Type) where
  | proving
  /-- The proof is there, the permit is returned. -/
  | proved (p : P)
  /-- The proof file is created, still empty. -/
  | created (p : P)
  /-- The file is complete, or none is due. -/
  | written (p : P)
  /-- The proof is handed to the next task. -/
  | sent (p : P)
  | failed

/-- The state of `prove`: how many blocks were taken from the channel, whether the loop is left, which tasks hold a
permit, the tasks, and the proof files (`some none` is an incomplete one). -/
structure St (P : Type) where
  spawned : Nat
  closed : Bool
  holders : List Nat
  phase : Nat → Phase P
  disk : Nat → Option (Option P)

section
variable {I A P : Type}

/-- Replacing one value. -/
def upd {β : Type} (f : Nat → β) (k : Nat) (b : β) : Nat → β := fun j => if j = k then b else f j

/-- The program's surroundings: decoding and proving a block up to its aggregated proof (`prep`), the block proof on top
of the previous one (`blk`), the height in a proof, and the blocks the channel delivers, each with its last-flag. -/
structure Env (I A P : Type) where
  prep : I → Option A
  blk : Option P → A → Option P
  height : P → Nat
  blocks : List (I × Bool)
  checkpoint : Option P

variable (E : Env I A P) (c : Cfg)

/-- `prove_block`: the aggregated proof is made before the previous proof is awaited. `zero/src/prover.rs:316-350, 396-412`. -/
def Env.proveBlock (prev : Option P) (i : I) : Option P := (E.prep i).bind (E.blk prev)

/-- Whether the proof of block `k` is written. `block_counter` is `k + 1`. `zero/src/prover.rs:465-475`. -/
def due (k : Nat) (last : Bool) : Bool := !c.testOnly && (last || c.keep || (k + 1) % c.batchSize == 0)

/-- The previous proof as task `k` sees it: there, or not yet. `zero/src/prover.rs:428-429, 441, 496-499`. -/
def St.prev (s : St P) : Nat → Option (Option P)
  | 0 => some E.checkpoint
  | k + 1 => match s.phase k with
    | .sent p => some (some p)
    | _ => none

/-- The task of block `k` ends in failure; its permit is returned if it still has it. -/
def St.fail (s : St P) (k : Nat) : St P := { s with phase := upd s.phase k .failed, holders := s.holders.erase k }

/-- Steps. With `io`, writing a file may fail. `zero/src/prover.rs:420-549`. -/
inductive Step (io : Bool) : St P → St P → Prop
  /-- A block is taken from the channel and its task started, once a permit is free. -/
  | spawn {s i l} : s.closed = false → E.blocks[s.spawned]? = some (i, l) → s.holders.length < c.pool →
      Step io s { s with spawned := s.spawned + 1, closed := l, holders := s.spawned :: s.holders }
  /-- The channel is closed. -/
  | hangup {s} : s.closed = false → E.blocks[s.spawned]? = none → Step io s { s with closed := true }
  /-- Decoding the block or proving its batches fails. -/
  | prepFails {s k i l} : k < s.spawned → s.phase k = .proving → E.blocks[k]? = some (i, l) → E.prep i = none →
      Step io s (s.fail k)
  /-- The previous task is gone. -/
  | prevGone {s : St P} {k} : k + 1 < s.spawned → s.phase (k + 1) = .proving → s.phase k = .failed → Step io s (s.fail (k + 1))
  /-- The block proof fails. -/
  | blkFails {s k i l prev} : k < s.spawned → s.phase k = .proving → E.blocks[k]? = some (i, l) → s.prev E k = some prev →
      E.proveBlock prev i = none → Step io s (s.fail k)
  /-- The block proof is made, the permit returned. -/
  | prove {s k i l prev p} : k < s.spawned → s.phase k = .proving → E.blocks[k]? = some (i, l) → s.prev E k = some prev →
      E.proveBlock prev i = some p → Step io s { s with phase := upd s.phase k (.proved p), holders := s.holders.erase k }
  /-- `block_counter % block_batch_size` panics for a batch size of 0. -/
  | panics {s k p} : k < s.spawned → s.phase k = .proved p → c.batchSize = 0 → Step io s (s.fail k)
  /-- No file is due. -/
  | skip {s k i l p} : k < s.spawned → s.phase k = .proved p → E.blocks[k]? = some (i, l) → c.batchSize ≠ 0 → due c k l = false →
      Step io s { s with phase := upd s.phase k (.written p) }
  /-- `File::create`. -/
  | create {s k i l p} : k < s.spawned → s.phase k = .proved p → E.blocks[k]? = some (i, l) → c.batchSize ≠ 0 → due c k l = true →
      Step io s { s with phase := upd s.phase k (.created p), disk := upd s.disk (E.height p) (some none) }
  /-- `write_all`. -/
  | fill {s k p} : k < s.spawned → s.phase k = .created p →
      Step io s { s with phase := upd s.phase k (.written p), disk := upd s.disk (E.height p) (some (some p)) }
  /-- Creating or writing the file fails. -/
  | ioFails {s k p} : io = true → k < s.spawned → s.phase k = .proved p ∨ s.phase k = .created p → Step io s (s.fail k)
  /-- The proof is handed over, unless the next task is gone. -/
  | send {s : St P} {k p} : k < s.spawned → s.phase k = .written p → (k + 1 < s.spawned → s.phase (k + 1) ≠ .failed) →
      Step io s { s with phase := upd s.phase k (.sent p) }
  | sendFails {s : St P} {k p} : k + 1 < s.spawned → s.phase k = .written p → s.phase (k + 1) = .failed → Step io s (s.fail k)

/-- The state `prove` starts in. -/
def St.init : St P := ⟨0, false, [], fun _ => .proving, fun _ => none⟩

/-- Reachable states. -/
inductive Reach (io : Bool) : St P → Prop
  | init : Reach io St.init
  | step {s s'} : Reach io s → Step E c io s s' → Reach io s'

/-- `prove` has nothing left to wait for. -/
def Finished (s : St P) : Prop :=
  s.closed = true ∧ ∀ k, k < s.spawned → (∃ p, s.phase k = .sent p) ∨ s.phase k = .failed

/-- The proof of a task, if it has one. -/
def Phase.proof : Phase P → Option P
  | .proved p => some p
  | .created p => some p
  | .written p => some p
  | .sent p => some p
  | _ => none

/-! ## Specification -/

/-- `p` is the proof of the last of some blocks, each proved on top of the one before, the first on the checkpoint. -/
inductive Proves : List I → P → Prop
  | one {i p} : E.proveBlock E.checkpoint i = some p → Proves [i] p
  | snoc {is q i p} : Proves is q → E.proveBlock (some q) i = some p → Proves (is ++ [i]) p

/-! ## Proofs -/

structure Inv (s : St P) : Prop where
  bound : s.spawned ≤ E.blocks.length
  open_ : ∀ k x, E.blocks[k]? = some x → k + 1 < s.spawned ∨ (k < s.spawned ∧ s.closed = false) → x.2 = false
  closed : s.closed = true → s.spawned = E.blocks.length ∨ ∃ k x, s.spawned = k + 1 ∧ E.blocks[k]? = some x ∧ x.2 = true
  fresh : ∀ k, s.spawned ≤ k → s.phase k = .proving
  hold : ∀ k, k ∈ s.holders ↔ k < s.spawned ∧ s.phase k = .proving
  nodup : s.holders.Nodup
  pool : s.holders.length ≤ c.pool
  chain : ∀ k p, (s.phase k).proof = some p → Proves E ((E.blocks.map (·.1)).take (k + 1)) p
  prevs : ∀ k p, (s.phase (k + 1)).proof = some p → ∃ q, s.phase k = .sent q

theorem upd_same {β : Type} (f : Nat → β) (k : Nat) (b : β) : upd f k b k = b := by simp [upd]
theorem upd_ne {β : Type} (f : Nat → β) {k j : Nat} (b : β) (h : j ≠ k) : upd f k b j = f j := by simp [upd, h]

variable {E c}

theorem Inv.init : Inv E c (St.init : St P) where
  bound := Nat.zero_le _
  open_ := fun k x _ h => by simp only [St.init] at h; omega
  closed := fun h => by simp [St.init] at h
  fresh := fun _ _ => rfl
  hold := fun k => by simp [St.init]
  nodup := List.nodup_nil
  pool := Nat.zero_le _
  chain := fun k p h => by cases h
  prevs := fun k p h => by cases h

/-- Moving the task of block `k` on. -/
theorem Inv.upd {s : St P} (h : Inv E c s) {k : Nat} {ph : Phase P} (d : Nat → Option (Option P)) (hk : k < s.spawned)
    (hns : ∀ q, s.phase k ≠ .sent q) (hph : ph ≠ .proving)
    (hch : ∀ p, ph.proof = some p → Proves E ((E.blocks.map (·.1)).take (k + 1)) p ∧ ∀ j, k = j + 1 → ∃ q, s.phase j = .sent q) :
    Inv E c { s with phase := Chain.upd s.phase k ph, holders := s.holders.erase k, disk := d } where
  bound := h.bound
  open_ := h.open_
  closed := h.closed
  fresh := fun j hj => by
    simp only at hj ⊢
    rw [upd_ne _ _ (by omega)]; exact h.fresh j hj
  hold := fun j => by
    simp only
    rw [h.nodup.mem_erase_iff, h.hold]
    by_cases hj : j = k
    · subst hj; simp [upd_same, hph]
    · simp [upd_ne _ _ hj, hj]
  nodup := h.nodup.erase k
  pool := Nat.le_trans (List.length_erase_le) h.pool
  chain := fun j p hp => by
    simp only at hp
    by_cases hj : j = k
    · subst hj; rw [upd_same] at hp; exact (hch p hp).1
    · rw [upd_ne _ _ hj] at hp; exact h.chain j p hp
  prevs := fun j p hp => by
    simp only at hp ⊢
    by_cases hj : j + 1 = k
    · subst hj
      rw [upd_same] at hp
      obtain ⟨q, hq⟩ := (hch p hp).2 j rfl
      exact ⟨q, by rw [upd_ne _ _ (by omega)]; exact hq⟩
    · rw [upd_ne _ _ hj] at hp
      obtain ⟨q, hq⟩ := h.prevs j p hp
      by_cases hjk : j = k
      · subst hjk; exact absurd hq (hns q)
      · exact ⟨q, by rw [upd_ne _ _ hjk]; exact hq⟩

theorem Inv.erase {s : St P} (h : Inv E c s) {k : Nat} (hk : s.phase k ≠ .proving) : s.holders.erase k = s.holders :=
  List.erase_of_not_mem (fun hm => hk ((h.hold k).1 hm).2)

/-- Moving on a task that already has its proof. -/
theorem Inv.keep {s : St P} (h : Inv E c s) {k : Nat} {ph : Phase P} {p : P} (d : Nat → Option (Option P)) (hk : k < s.spawned)
    (hp : (s.phase k).proof = some p) (hns : ∀ q, s.phase k ≠ .sent q) (hph : ph.proof = some p) :
    Inv E c { s with phase := Chain.upd s.phase k ph, disk := d } := by
  have h1 := h.upd (k := k) (ph := ph) d hk hns (by rintro rfl; cases hph) (fun q hq => by
    rw [hph] at hq
    cases hq
    exact ⟨h.chain k p hp, fun j hj => by subst hj; exact h.prevs j p hp⟩)
  rw [h.erase (by intro e; rw [e] at hp; cases hp)] at h1
  exact h1

theorem Inv.failed {s : St P} (h : Inv E c s) {k : Nat} (hk : k < s.spawned) (hns : ∀ q, s.phase k ≠ .sent q) : Inv E c (s.fail k) :=
  h.upd s.disk hk hns (by simp) (fun p hp => by cases hp)

theorem take_succ_of {l : List (I × Bool)} {k : Nat} {i : I} {b : Bool} (h : l[k]? = some (i, b)) :
    (l.map (·.1)).take (k + 1) = (l.map (·.1)).take k ++ [i] := by
  rw [List.take_add_one, List.getElem?_map, h]; rfl

theorem Inv.step {io : Bool} {s s' : St P} (h : Inv E c s) (hs : Step E c io s s') : Inv E c s' := by
  cases hs with
  | @spawn i l h1 h2 h3 =>
    have hlt : s.spawned < E.blocks.length := (List.getElem?_eq_some_iff.1 h2).1
    refine ⟨hlt, ?_, ?_, ?_, ?_, ?_, ?_, h.chain, h.prevs⟩
    · intro k x hx hk
      simp only at hk
      by_cases hk' : k < s.spawned
      · exact h.open_ k x hx (.inr ⟨hk', h1⟩)
      · have : k = s.spawned := by omega
        subst this
        rw [h2] at hx; cases hx
        rcases hk with hk | hk
        · omega
        · exact hk.2
    · intro hl
      simp only at hl
      subst hl
      exact .inr ⟨_, _, rfl, h2, rfl⟩
    · intro k hk
      simp only at hk
      exact h.fresh k (by omega)
    · intro k
      simp only [List.mem_cons, h.hold]
      constructor
      · rintro (rfl | ⟨h4, h5⟩)
        · exact ⟨Nat.lt_succ_self _, h.fresh _ (Nat.le_refl _)⟩
        · exact ⟨by omega, h5⟩
      · rintro ⟨h4, h5⟩
        by_cases hk : k = s.spawned
        · exact .inl hk
        · exact .inr ⟨by omega, h5⟩
    · refine List.nodup_cons.2 ⟨fun hm => ?_, h.nodup⟩
      have := ((h.hold _).1 hm).1
      omega
    · simp only [List.length_cons]; omega
  | hangup h1 h2 =>
    refine ⟨h.bound, ?_, ?_, h.fresh, h.hold, h.nodup, h.pool, h.chain, h.prevs⟩
    · intro k x hx hk
      refine h.open_ k x hx ?_
      rcases hk with hk | hk
      · exact .inl hk
      · cases hk.2
    · intro _
      have := List.getElem?_eq_none_iff.1 h2
      exact .inl (Nat.le_antisymm h.bound this)
  | prepFails h1 h2 h3 h4 => exact h.failed h1 (by simp [h2])
  | prevGone h1 h2 h3 => exact h.failed h1 (by simp [h2])
  | blkFails h1 h2 => exact h.failed h1 (by simp [h2])
  | @prove k i l prev p h1 h2 h3 h4 h5 =>
    refine h.upd s.disk h1 (by simp [h2]) (by simp) (fun q hq => ?_)
    cases hq
    cases k with
    | zero =>
      cases h4
      refine ⟨?_, fun j hj => by omega⟩
      rw [take_succ_of h3]
      exact .one h5
    | succ j =>
      simp only [St.prev] at h4
      split at h4
      · rename_i q hq
        cases h4
        refine ⟨?_, fun j' hj => by cases hj; exact ⟨q, hq⟩⟩
        rw [take_succ_of h3]
        exact .snoc (h.chain j q (by rw [hq]; rfl)) h5
      · cases h4
  | panics h1 h2 => exact h.failed h1 (by simp [h2])
  | skip h1 h2 => exact h.keep s.disk h1 (by rw [h2]; rfl) (by simp [h2]) rfl
  | create h1 h2 => exact h.keep _ h1 (by rw [h2]; rfl) (by simp [h2]) rfl
  | fill h1 h2 => exact h.keep _ h1 (by rw [h2]; rfl) (by simp [h2]) rfl
  | ioFails _ h1 h2 => exact h.failed h1 (by rcases h2 with h2 | h2 <;> simp [h2])
  | send h1 h2 => exact h.keep s.disk h1 (by rw [h2]; rfl) (by simp [h2]) rfl
  | sendFails h1 h2 => exact h.failed (by omega) (by simp [h2])

theorem Reach.inv {io : Bool} {s : St P} (h : Reach E c io s) : Inv E c s := by
  induction h with
  | init => exact .init
  | step _ hs ih => exact ih.step hs

/-! ### C34 -/

/-- **C34**. At every moment of every run, every proof a task holds is built on the proofs of all blocks before it, in
order, down to the checkpoint. -/
theorem C34_chain {io : Bool} {s : St P} (h : Reach E c io s) {k : Nat} {p : P} (hp : (s.phase k).proof = some p) :
    Proves E ((E.blocks.map (·.1)).take (k + 1)) p := h.inv.chain k p hp

/-- **C34**. No more blocks than the pool allows are proved at the same time. -/
theorem C34_pool {io : Bool} {s : St P} (h : Reach E c io s) (l : List Nat) (hn : l.Nodup)
    (hl : ∀ k ∈ l, k < s.spawned ∧ s.phase k = .proving) : l.length ≤ c.pool :=
  Nat.le_trans (hn.length_le_of_subset (fun k hk => (h.inv.hold k).2 (hl k hk))) h.inv.pool

/-- The heights in the proofs are the numbers of the blocks, and no number comes twice. -/
structure Heights (E : Env I A P) (num : I → Nat) : Prop where
  height : ∀ prev i p, E.proveBlock prev i = some p → E.height p = num i
  distinct : ∀ (j k : Nat) (x y : I × Bool), E.blocks[j]? = some x → E.blocks[k]? = some y → num x.1 = num y.1 → j = k

/-- The blocks whose proofs are kept: none in a test run; otherwise the last one, every one if intermediate proofs are kept,
and those that end a batch. (Specification.) -/
def Wanted (c : Cfg) (k : Nat) (last : Bool) : Prop :=
  c.testOnly = false ∧ (last = true ∨ c.keep = true ∨ (k + 1) % c.batchSize = 0)

theorem due_iff {k : Nat} {l : Bool} : due c k l = true ↔ Wanted c k l := by
  simp [due, Wanted, or_assoc]

/-- What is known of a file, complete (`some p`) or not, of block `k`. -/
def FileOk (E : Env I A P) (s : St P) (k : Nat) : Option P → Prop
  | none => (∃ p, s.phase k = .created p) ∨ s.phase k = .failed
  | some p => Proves E ((E.blocks.map (·.1)).take (k + 1)) p ∧ (s.phase k = .written p ∨ s.phase k = .sent p ∨ s.phase k = .failed)

structure Files (E : Env I A P) (c : Cfg) (num : I → Nat) (s : St P) : Prop where
  only : ∀ h f, s.disk h = some f → ∃ k i l, E.blocks[k]? = some (i, l) ∧ num i = h ∧ due c k l = true ∧
    (∀ j, j < k → ∃ q, s.phase j = .sent q) ∧ FileOk E s k f
  all : ∀ k i l p, E.blocks[k]? = some (i, l) → due c k l = true → s.phase k = .written p ∨ s.phase k = .sent p →
    s.disk (num i) = some (some p)
  made : ∀ k i l p, E.blocks[k]? = some (i, l) → s.phase k = .created p → due c k l = true

theorem proves_height {num : I → Nat} (hh : Heights E num) {k : Nat} {i : I} {l : Bool} (hb : E.blocks[k]? = some (i, l)) {p : P}
    (hp : Proves E ((E.blocks.map (·.1)).take (k + 1)) p) : E.height p = num i := by
  rw [take_succ_of hb] at hp
  generalize hx : (E.blocks.map (·.1)).take k ++ [i] = is at hp
  cases hp with
  | one h1 =>
    rename_i i'
    have : i = i' := by
      have := congrArg List.getLast? hx
      simpa using this
    subst this
    exact hh.height _ _ _ h1
  | snoc h1 h2 =>
    rename_i is q i'
    have : i = i' := by
      have := congrArg List.getLast? hx
      simpa using this
    subst this
    exact hh.height _ _ _ h2

/-- The tasks before one with a proof have handed theirs over. -/
theorem Inv.before {s : St P} (h : Inv E c s) : ∀ {k : Nat} {p : P}, (s.phase k).proof = some p → ∀ j, j < k → ∃ q, s.phase j = .sent q
  | 0, _, _, j, hj => by omega
  | k + 1, p, hp, j, hj => by
    obtain ⟨q, hq⟩ := h.prevs k p hp
    by_cases hjk : j = k
    · subst hjk; exact ⟨q, hq⟩
    · exact h.before (k := k) (p := q) (by rw [hq]; rfl) j (by omega)

/-- Moving a task on without touching the files. -/
theorem Files.move {num : I → Nat} {s : St P} (h : Files E c num s) {k : Nat} {ph : Phase P} (hold : List Nat)
    (hns : ∀ q, s.phase k ≠ .sent q)
    (h1 : ∀ f, FileOk E s k f → FileOk E { s with phase := upd s.phase k ph, holders := hold } k f)
    (h2 : ∀ i l p, E.blocks[k]? = some (i, l) → due c k l = true → ph = .written p ∨ ph = .sent p → s.disk (num i) = some (some p))
    (h3 : ∀ p, ph ≠ .created p) :
    Files E c num { s with phase := upd s.phase k ph, holders := hold } where
  only := fun hh f hf => by
    obtain ⟨j, i, l, a1, a2, a3, a4, a5⟩ := h.only hh f hf
    refine ⟨j, i, l, a1, a2, a3, fun j' hj' => ?_, ?_⟩
    · obtain ⟨q, hq⟩ := a4 j' hj'
      have : j' ≠ k := by rintro rfl; exact hns q hq
      exact ⟨q, by simp only [upd_ne _ _ this]; exact hq⟩
    · by_cases hj : j = k
      · subst hj; exact h1 f a5
      · cases f <;> simpa only [FileOk, upd_ne _ _ hj] using a5
  all := fun j i l p hb hd hp => by
    simp only at hp ⊢
    by_cases hj : j = k
    · subst hj; rw [upd_same] at hp; exact h2 i l p hb hd hp
    · rw [upd_ne _ _ hj] at hp; exact h.all j i l p hb hd hp
  made := fun j i l p hb hp => by
    simp only at hp
    by_cases hj : j = k
    · subst hj; rw [upd_same] at hp; exact absurd hp (h3 p)
    · rw [upd_ne _ _ hj] at hp; exact h.made j i l p hb hp

theorem Files.failed {num : I → Nat} {s : St P} (h : Files E c num s) {k : Nat} (hns : ∀ q, s.phase k ≠ .sent q) :
    Files E c num (s.fail k) := by
  refine h.move _ hns (fun f hf => ?_) (fun i l p _ _ hp => ?_) (by simp)
  · cases f with
    | none => exact .inr (upd_same _ _ _)
    | some p => exact ⟨hf.1, .inr (.inr (upd_same _ _ _))⟩
  · rcases hp with hp | hp <;> cases hp

/-- Writing the file of block `k`. -/
theorem Files.write {num : I → Nat} {s : St P} (h : Files E c num s) (hi : Inv E c s) (hh : Heights E num) {k : Nat} {ph : Phase P}
    {p : P} {i : I} {l : Bool} (f : Option P) (hb : E.blocks[k]? = some (i, l)) (hd : due c k l = true)
    (hp : (s.phase k).proof = some p) (hns : ∀ q, s.phase k ≠ .sent q) (hsent : ∀ q, ph ≠ .sent q)
    (h1 : FileOk E { s with phase := upd s.phase k ph, disk := upd s.disk (E.height p) (some f) } k f)
    (h2 : ∀ q, ph = .written q → f = some q) :
    Files E c num { s with phase := upd s.phase k ph, disk := upd s.disk (E.height p) (some f) } := by
  have hn := proves_height hh hb (hi.chain k p hp)
  have other : ∀ {j i' l'}, E.blocks[j]? = some (i', l') → j ≠ k → num i' ≠ num i := fun hj hne he => hne (hh.distinct _ _ _ _ hj hb he)
  constructor
  · intro x f' hf
    simp only at hf
    by_cases hx : x = E.height p
    · subst hx
      rw [upd_same] at hf
      cases hf
      refine ⟨k, i, l, hb, hn.symm, hd, fun j hj => ?_, h1⟩
      obtain ⟨q, hq⟩ := hi.before hp j hj
      exact ⟨q, by simp only [upd_ne _ _ (Nat.ne_of_lt hj)]; exact hq⟩
    · rw [upd_ne _ _ hx] at hf
      obtain ⟨j, i', l', a1, a2, a3, a4, a5⟩ := h.only x f' hf
      have hj : j ≠ k := by
        rintro rfl
        rw [hb] at a1; cases a1
        exact hx (by rw [hn, a2])
      refine ⟨j, i', l', a1, a2, a3, fun j' hj' => ?_, ?_⟩
      · obtain ⟨q, hq⟩ := a4 j' hj'
        have : j' ≠ k := by rintro rfl; exact hns q hq
        exact ⟨q, by simp only [upd_ne _ _ this]; exact hq⟩
      · cases f' <;> simpa only [FileOk, upd_ne _ _ hj] using a5
  · intro j i' l' q hb' hd' hq
    simp only at hq ⊢
    by_cases hj : j = k
    · subst hj
      rw [hb] at hb'; cases hb'
      rw [upd_same] at hq
      rw [← hn, upd_same]
      rcases hq with hq | hq
      · rw [h2 q hq]
      · exact absurd hq (hsent q)
    · rw [upd_ne _ _ hj] at hq
      rw [upd_ne _ _ (by rw [hn]; exact other hb' hj)]
      exact h.all j i' l' q hb' hd' hq
  · intro j i' l' q hb' hq
    simp only at hq
    by_cases hj : j = k
    · subst hj
      rw [hb] at hb'; cases hb'
      exact hd
    · rw [upd_ne _ _ hj] at hq
      exact h.made j i' l' q hb' hq

theorem Files.step {num : I → Nat} (hh : Heights E num) {io : Bool} {s s' : St P} (hi : Inv E c s) (h : Files E c num s)
    (hs : Step E c io s s') : Files E c num s' := by
  cases hs with
  | spawn => exact ⟨h.only, h.all, h.made⟩
  | hangup => exact ⟨h.only, h.all, h.made⟩
  | prepFails h1 h2 h3 h4 => exact h.failed (by simp [h2])
  | prevGone h1 h2 h3 => exact h.failed (by simp [h2])
  | blkFails h1 h2 => exact h.failed (by simp [h2])
  | @prove k i l prev p h1 h2 h3 h4 h5 =>
    refine h.move _ (by simp [h2]) (fun f hf => ?_) (fun i l p _ _ hp => ?_) (by simp)
    · cases f <;> simp [FileOk, h2] at hf
    · rcases hp with hp | hp <;> cases hp
  | panics h1 h2 => exact h.failed (by simp [h2])
  | @skip k i l p h1 h2 h3 h4 h5 =>
    refine h.move s.holders (by simp [h2]) (fun f hf => ?_) (fun i' l' q hb hd _ => ?_) (by simp)
    · cases f <;> simp [FileOk, h2] at hf
    · rw [h3] at hb; cases hb; rw [h5] at hd; cases hd
  | @create k i l p h1 h2 h3 h4 h5 =>
    exact h.write hi hh none h3 h5 (by rw [h2]; rfl) (by simp [h2]) (by simp) (.inl ⟨p, upd_same _ _ _⟩) (by simp)
  | @fill k p h1 h2 =>
    have hlt : k < E.blocks.length := Nat.lt_of_lt_of_le h1 hi.bound
    obtain ⟨⟨i, l⟩, hb'⟩ : ∃ x, E.blocks[k]? = some x := ⟨_, List.getElem?_eq_getElem hlt⟩
    exact h.write hi hh (some p) hb' (h.made k i l p hb' h2) (by rw [h2]; rfl) (by simp [h2]) (by simp)
      ⟨hi.chain k p (by rw [h2]; rfl), .inl (upd_same _ _ _)⟩ (by intro q hq; cases hq; rfl)
  | ioFails _ h1 h2 => exact h.failed (by rcases h2 with h2 | h2 <;> simp [h2])
  | @send k p h1 h2 h3 =>
    refine h.move s.holders (by simp [h2]) (fun f hf => ?_) (fun i l q hb hd hq => ?_) (by simp)
    · cases f with
      | none => simp [FileOk, h2] at hf
      | some q =>
        refine ⟨hf.1, .inr (.inl ?_)⟩
        have := hf.2
        rw [h2] at this
        rcases this with h | h | h <;> cases h
        exact upd_same _ _ _
    · rcases hq with hq | hq <;> cases hq
      exact h.all k i l p hb hd (.inl h2)
  | sendFails h1 h2 => exact h.failed (by simp [h2])

theorem Reach.files {num : I → Nat} (hh : Heights E num) {io : Bool} {s : St P} (h : Reach E c io s) : Files E c num s := by
  induction h with
  | init =>
    constructor
    · intro _ _ h; cases h
    · intro _ _ _ _ _ _ h; rcases h with h | h <;> cases h
    · intro _ _ _ _ _ h; cases h
  | step h hs ih => exact ih.step hh h.inv hs

/-- **C34**. At every moment of every run, also when tasks fail or the process stops: a proof file is that of a block
for which one is due; if it is complete it holds the proof of this block on top of all before it; and the files of the
blocks before it that are due are complete. -/
theorem C34_files {num : I → Nat} (hh : Heights E num) {io : Bool} {s : St P} (h : Reach E c io s) {n : Nat} {f : Option P}
    (hf : s.disk n = some f) : ∃ k i l, E.blocks[k]? = some (i, l) ∧ num i = n ∧ Wanted c k l ∧
      (∀ p, f = some p → Proves E ((E.blocks.map (·.1)).take (k + 1)) p) ∧
      ∀ j i' l', j < k → E.blocks[j]? = some (i', l') → Wanted c j l' →
        ∃ q, s.disk (num i') = some (some q) ∧ Proves E ((E.blocks.map (·.1)).take (j + 1)) q := by
  obtain ⟨k, i, l, a1, a2, a3, a4, a5⟩ := (h.files hh).only n f hf
  refine ⟨k, i, l, a1, a2, due_iff.1 a3, fun p hp => by subst hp; exact a5.1, fun j i' l' hj hb hd => ?_⟩
  obtain ⟨q, hq⟩ := a4 j hj
  exact ⟨q, (h.files hh).all j i' l' q hb (due_iff.2 hd) (.inr hq), h.inv.chain j q (by rw [hq]; rfl)⟩

/-- The first task that is neither done nor failed can move. -/
theorem first_moves {io : Bool} {s : St P} (h : Inv E c s) {k : Nat} (hk : k < s.spawned) (hu : (∀ p, s.phase k ≠ .sent p) ∧ s.phase k ≠ .failed)
    (hf : ∀ j, j < k → (∃ p, s.phase j = .sent p) ∨ s.phase j = .failed) : ∃ s', Step E c io s s' := by
  have hlt : k < E.blocks.length := Nat.lt_of_lt_of_le hk h.bound
  obtain ⟨⟨i, l⟩, hb⟩ : ∃ x, E.blocks[k]? = some x := ⟨_, List.getElem?_eq_getElem hlt⟩
  cases hp : s.phase k with
  | proving =>
    have go : ∀ prev, s.prev E k = some prev → ∃ s', Step E c io s s' := by
      intro prev hprev
      cases hx : E.proveBlock prev i with
      | none => exact ⟨_, .blkFails hk hp hb hprev hx⟩
      | some p => exact ⟨_, .prove hk hp hb hprev hx⟩
    cases k with
    | zero => exact go _ rfl
    | succ j =>
      rcases hf j (Nat.lt_succ_self j) with ⟨q, hq⟩ | hq
      · exact go (some q) (by simp only [St.prev, hq])
      · exact ⟨_, .prevGone hk hp hq⟩
  | proved p =>
    by_cases hz : c.batchSize = 0
    · exact ⟨_, .panics hk hp hz⟩
    · cases hd : due c k l with
      | false => exact ⟨_, .skip hk hp hb hz hd⟩
      | true => exact ⟨_, .create hk hp hb hz hd⟩
  | created p => exact ⟨_, .fill hk hp⟩
  | written p =>
    by_cases hn : k + 1 < s.spawned ∧ s.phase (k + 1) = .failed
    · exact ⟨_, .sendFails hn.1 hp hn.2⟩
    · exact ⟨_, .send hk hp (fun h1 h2 => hn ⟨h1, h2⟩)⟩
  | sent p => exact absurd hp (hu.1 p)
  | failed => exact absurd hp hu.2

theorem exists_least {p : Nat → Prop} : ∀ n, p n → ∃ m, p m ∧ ∀ j, j < m → ¬ p j := by
  intro n
  induction n using Nat.strongRecOn with
  | _ n ih =>
    intro hn
    by_cases h : ∃ j, j < n ∧ p j
    · obtain ⟨j, hj, hp⟩ := h
      exact ih j hj hp
    · exact ⟨n, hn, fun j hj hp => h ⟨j, hj, hp⟩⟩

/-- **C34**. No deadlock: with at least one permit, a run that is not finished can go on. -/
theorem C34_progress {io : Bool} {s : St P} (h : Reach E c io s) (hpool : 0 < c.pool) : Finished s ∨ ∃ s', Step E c io s s' := by
  have hi := h.inv
  have go : ∀ k, k < s.spawned → (∀ p, s.phase k ≠ .sent p) ∧ s.phase k ≠ .failed → ∃ s', Step E c io s s' := by
    intro k hk hu
    obtain ⟨m, hm, hmin⟩ := exists_least (p := fun k => k < s.spawned ∧ (∀ p, s.phase k ≠ .sent p) ∧ s.phase k ≠ .failed) k ⟨hk, hu⟩
    refine first_moves hi hm.1 hm.2 (fun j hj => ?_)
    apply Classical.byContradiction
    intro hc
    refine hmin j hj ⟨by omega, fun p hp => hc (.inl ⟨p, hp⟩), fun hp => hc (.inr hp)⟩
  cases hcl : s.closed with
  | false =>
    right
    cases hb : E.blocks[s.spawned]? with
    | none => exact ⟨_, .hangup hcl hb⟩
    | some x =>
      by_cases hh : s.holders.length < c.pool
      · exact ⟨_, .spawn (i := x.1) (l := x.2) hcl hb hh⟩
      · obtain ⟨k, hk⟩ := List.exists_mem_of_length_pos (l := s.holders) (by omega)
        obtain ⟨h1, h2⟩ := (hi.hold k).1 hk
        exact go k h1 (by simp [h2])
  | true =>
    apply Classical.byContradiction
    intro hc
    refine hc (.inl ⟨hcl, fun k hk => ?_⟩)
    apply Classical.byContradiction
    intro hu
    exact hc (.inr (go k hk ⟨fun p hp => hu (.inl ⟨p, hp⟩), fun hp => hu (.inr hp)⟩))

/-- How far a task is from its end. -/
def Phase.rank : Phase P → Nat
  | .proving => 4
  | .proved _ => 3
  | .created _ => 2
  | .written _ => 1
  | _ => 0

/-- How much is left to do. -/
def left (E : Env I A P) (s : St P) : Nat :=
  ((List.range E.blocks.length).map (fun k => if k < s.spawned then (s.phase k).rank else 5)).sum + if s.closed then 0 else 1

theorem sum_lt {f g : Nat → Nat} {n k : Nat} (hk : k < n) (hlt : f k < g k) (hle : ∀ j, j ≠ k → f j ≤ g j) :
    ((List.range n).map f).sum < ((List.range n).map g).sum := by
  induction n with
  | zero => omega
  | succ n ih =>
    rw [List.range_succ, List.map_append, List.map_append, List.sum_append, List.sum_append]
    simp only [List.map_cons, List.map_nil, List.sum_cons, List.sum_nil, Nat.add_zero]
    by_cases hkn : k = n
    · subst hkn
      have : ((List.range k).map f).sum ≤ ((List.range k).map g).sum := by
        clear hk ih
        have h2 : ∀ j ∈ List.range k, f j ≤ g j := fun j hj => hle j (by have := List.mem_range.1 hj; omega)
        revert h2
        generalize List.range k = l
        intro h2
        induction l with
        | nil => simp
        | cons x l ih =>
          simp only [List.map_cons, List.sum_cons]
          have := h2 x List.mem_cons_self
          have := ih (fun j hj => h2 j (List.mem_cons_of_mem _ hj))
          omega
      omega
    · have := ih (by omega)
      have := hle n (fun h => hkn h.symm)
      omega

theorem left_upd {s : St P} (h : Inv E c s) {k : Nat} {ph : Phase P} (d : Nat → Option (Option P)) (hold : List Nat)
    (hk : k < s.spawned) (hr : ph.rank < (s.phase k).rank) :
    left E { s with phase := upd s.phase k ph, holders := hold, disk := d } < left E s := by
  unfold left
  refine Nat.add_lt_add_right (sum_lt (k := k) (Nat.lt_of_lt_of_le hk h.bound) ?_ ?_) _
  · simp only [hk, if_true, upd_same]; exact hr
  · intro j hj
    simp only [upd_ne _ _ hj]; exact Nat.le_refl _

/-- **C34**. Every step brings a run closer to its end, so every run ends. -/
theorem C34_terminates {io : Bool} {s s' : St P} (h : Reach E c io s) (hs : Step E c io s s') : left E s' < left E s := by
  have hi := h.inv
  cases hs with
  | @spawn i l h1 h2 h3 =>
    have hlt : s.spawned < E.blocks.length := (List.getElem?_eq_some_iff.1 h2).1
    unfold left
    have := sum_lt (f := fun k => if k < s.spawned + 1 then (s.phase k).rank else 5)
      (g := fun k => if k < s.spawned then (s.phase k).rank else 5) (k := s.spawned) hlt
      (by simp only [Nat.lt_succ_self, if_true, Nat.lt_irrefl, if_false]; rw [hi.fresh _ (Nat.le_refl _)]; show 4 < 5; decide)
      (fun j hj => by
        by_cases h : j < s.spawned
        · simp [h, Nat.lt_succ_of_lt h]
        · simp [h, show ¬ j < s.spawned + 1 by omega])
    simp only [h1]
    split <;> simp <;> omega
  | hangup h1 h2 => simp [left, h1]
  | prepFails h1 h2 h3 h4 => exact left_upd hi s.disk _ h1 (by rw [h2]; show 0 < 4; decide)
  | prevGone h1 h2 h3 => exact left_upd hi s.disk _ h1 (by rw [h2]; show 0 < 4; decide)
  | blkFails h1 h2 => exact left_upd hi s.disk _ h1 (by rw [h2]; show 0 < 4; decide)
  | prove h1 h2 => exact left_upd hi s.disk _ h1 (by rw [h2]; show 3 < 4; decide)
  | panics h1 h2 => exact left_upd hi s.disk _ h1 (by rw [h2]; show 0 < 3; decide)
  | skip h1 h2 => exact left_upd hi s.disk s.holders h1 (by rw [h2]; show 1 < 3; decide)
  | create h1 h2 => exact left_upd hi _ s.holders h1 (by rw [h2]; show 2 < 3; decide)
  | fill h1 h2 => exact left_upd hi _ s.holders h1 (by rw [h2]; show 1 < 2; decide)
  | ioFails _ h1 h2 =>
    refine left_upd hi s.disk _ h1 ?_
    rcases h2 with h2 | h2 <;> rw [h2] <;> simp [Phase.rank]
  | send h1 h2 => exact left_upd hi s.disk s.holders h1 (by rw [h2]; show 0 < 1; decide)
  | sendFails h1 h2 => exact left_upd hi s.disk _ (by omega) (by rw [h2]; show 0 < 1; decide)

/-- Nothing goes wrong: every block can be proved on top of everything, and the batch size is not 0. -/
structure Sound (E : Env I A P) (c : Cfg) : Prop where
  prep : ∀ x ∈ E.blocks, ∀ prev, ∃ p, E.proveBlock prev x.1 = some p
  size : c.batchSize ≠ 0

theorem no_failure (hs : Sound E c) {s : St P} (h : Reach E c false s) : ∀ k, s.phase k ≠ .failed := by
  have mem : ∀ {k x}, E.blocks[k]? = some x → x ∈ E.blocks := fun hx => List.mem_of_getElem? hx
  induction h with
  | init => intro k hk; cases hk
  | @step s s' _ st ih =>
    have mv : ∀ {k j : Nat} {ph : Phase P}, ph ≠ .failed → upd s.phase k ph j ≠ .failed := by
      intro k j ph h
      by_cases hj : j = k
      · subst hj; rw [upd_same]; exact h
      · rw [upd_ne _ _ hj]; exact ih j
    intro j
    cases st with
    | spawn => exact ih j
    | hangup => exact ih j
    | prepFails h1 h2 h3 h4 =>
      obtain ⟨p, hp⟩ := hs.prep _ (mem h3) none
      simp only [Env.proveBlock, h4] at hp
      cases hp
    | prevGone h1 h2 h3 => exact absurd h3 (ih _)
    | blkFails h1 h2 h3 h4 h5 =>
      obtain ⟨p, hp⟩ := hs.prep _ (mem h3) _
      rw [h5] at hp; cases hp
    | prove => exact mv (by simp)
    | panics h1 h2 h3 => exact absurd h3 hs.size
    | skip => exact mv (by simp)
    | create => exact mv (by simp)
    | fill => exact mv (by simp)
    | ioFails h => cases h
    | send => exact mv (by simp)
    | sendFails h1 h2 h3 => exact absurd h3 (ih _)

/-- **C34**. If nothing fails, when `prove` ends every block up to the first that is flagged last is proved on top of its
predecessors, its proof file is there if one is due, and there are no other files. -/
theorem C34_complete {num : I → Nat} (hh : Heights E num) (hs : Sound E c) {s : St P} (h : Reach E c false s) (hf : Finished s)
    {k : Nat} {i : I} {l : Bool} (hb : E.blocks[k]? = some (i, l)) (hl : ∀ j x, j < k → E.blocks[j]? = some x → x.2 = false) :
    ∃ p, s.phase k = .sent p ∧ Proves E ((E.blocks.map (·.1)).take (k + 1)) p ∧
      (Wanted c k l → s.disk (num i) = some (some p)) ∧ (¬ Wanted c k l → s.disk (num i) = none) := by
  have hi := h.inv
  have hk : k < s.spawned := by
    apply Classical.byContradiction
    intro hn
    have hlt := (List.getElem?_eq_some_iff.1 hb).1
    rcases hi.closed hf.1 with h1 | ⟨j, x, h1, h2, h3⟩
    · omega
    · rw [hl j x (by omega) h2] at h3; cases h3
  rcases hf.2 k hk with ⟨p, hp⟩ | hp
  · refine ⟨p, hp, hi.chain k p (by rw [hp]; rfl), ?_⟩
    refine ⟨fun hd => ?_, fun hd => ?_⟩
    · exact (h.files hh).all k i l p hb (due_iff.2 hd) (.inr hp)
    · cases hx : s.disk (num i) with
      | none => rfl
      | some f =>
        obtain ⟨j, i', l', a1, a2, a3, -⟩ := (h.files hh).only _ _ hx
        have := hh.distinct _ _ _ _ a1 hb a2
        subst this
        rw [hb] at a1; cases a1
        exact absurd (due_iff.1 a3) hd
  · exact absurd hp (no_failure hs h k)

end

/-! ### A concrete run -/

/-- Proofs are the lists of blocks they cover; two blocks, the second flagged last. -/
def demoEnv : Env Nat Nat (List Nat) where
  prep := some
  blk := fun prev a => some (prev.getD [] ++ [a])
  height := fun p => p.getLast?.getD 0
  blocks := [(7, false), (8, true)]
  checkpoint := some [6]

def demoCfg : Cfg := ⟨false, false, 8, 1⟩

/-- With one permit: block 7 is proved, block 8 is taken while the proof of block 7 is handed over, and so on. -/
theorem demo_run : ∃ s, Reach demoEnv demoCfg false s ∧ Finished s ∧ s.disk 8 = some (some [6, 7, 8]) ∧ s.disk 7 = none := by
  let s1 : St (List Nat) := ⟨1, false, [0], fun _ => .proving, fun _ => none⟩
  have r1 : Reach demoEnv demoCfg false s1 := .step .init (.spawn (i := 7) (l := false) rfl rfl (by decide))
  have r2 := Reach.step r1 (.prove (k := 0) (i := 7) (l := false) (prev := some [6]) (p := [6, 7]) (by decide) rfl rfl rfl rfl)
  have r3 := Reach.step r2 (.spawn (i := 8) (l := true) rfl rfl (by decide))
  have r4 := Reach.step r3 (.skip (k := 0) (i := 7) (l := false) (p := [6, 7]) (by decide) rfl rfl (by decide) rfl)
  have r5 := Reach.step r4 (.send (k := 0) (p := [6, 7]) (by decide) rfl (by intro _ h; cases h))
  have r6 := Reach.step r5 (.prove (k := 1) (i := 8) (l := true) (prev := some [6, 7]) (p := [6, 7, 8]) (by decide) rfl rfl rfl rfl)
  have r7 := Reach.step r6 (.create (k := 1) (i := 8) (l := true) (p := [6, 7, 8]) (by decide) rfl rfl (by decide) rfl)
  have r8 := Reach.step r7 (.fill (k := 1) (p := [6, 7, 8]) (by decide) rfl)
  have r9 := Reach.step r8 (.send (k := 1) (p := [6, 7, 8]) (by decide) rfl (by intro h; exact absurd h (by decide)))
  refine ⟨_, r9, ⟨rfl, fun k hk => ?_⟩, rfl, rfl⟩
  match k, hk with
  | 0, _ => exact .inl ⟨_, rfl⟩
  | 1, _ => exact .inl ⟨_, rfl⟩

theorem demo_proveBlock (prev : Option (List Nat)) (i : Nat) : demoEnv.proveBlock prev i = some (prev.getD [] ++ [i]) := rfl

theorem demo_heights : Heights demoEnv id where
  height := fun prev i p h => by
    rw [demo_proveBlock] at h
    cases h
    simp [demoEnv]
  distinct := fun j k x y hx hy e => by
    match j, k with
    | 0, 0 => rfl
    | 1, 1 => rfl
    | 0, 1 => cases hx; cases hy; cases e
    | 1, 0 => cases hx; cases hy; cases e
    | j + 2, _ => cases hx
    | 0, k + 2 => cases hy
    | 1, k + 2 => cases hy

example : Sound demoEnv demoCfg := ⟨fun _ _ _ => ⟨_, rfl⟩, by decide⟩

end Verif.Zero.Chain
