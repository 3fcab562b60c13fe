import Verif.Kernel.StackSearch
import Verif.Kernel.Simulate

/-!
# C46: `%stack` does what it says; C72: but not always in the same way
-/
namespace Verif.Kernel

/-! ## Specification -/

/-- The stack entries named by the placeholders, for an assignment `ρ` of values to names. -/
def leftOf (ρ : String → Nat → Val) (names : List Placeholder) : Stack :=
  names.flatMap (fun p => (List.range p.size).map (ρ p.name))

/-- What the right side asks for: a literal, a block of the left side (with the size last given to its name), or the address of a label. -/
def rightOf (ρ : String → Nat → Val) (names : List Placeholder) (rs : List Replacement) : Stack :=
  rs.flatMap (fun r =>
    match r with
    | .literal n => [.word n]
    | .label l => [.addr l]
    | .identifier x =>
      match names.reverse.find? (fun p => decide (p.name = x)) with
      | some p => (List.range p.size).map (ρ x)
      | none => [.addr x])

/-- Executing `items` turns the stack `s` into `s'`, whatever the program around them and the rest of the machine. -/
def Leads (items : List Item) (s s' : Stack) : Prop :=
  ∀ (W : Type) (ext : Item → W → Stack → Step W) (code cont : List Item) (w : W) (n : Nat),
    run ext code (n + items.length) (items ++ cont) s w = run ext code n cont s' w

/-- The instruction exists: the EVM has DUP1 to DUP16 and SWAP1 to SWAP16. For others the assembler panics (`opcodes.rs`). -/
def known : Item → Bool
  | .op (.dup n) => decide (1 ≤ n ∧ n ≤ 16)
  | .op (.swap n) => decide (1 ≤ n ∧ n ≤ 16)
  | _ => true

/-! ## Symbols and values -/

/-- The value of a symbol. -/
def Sym.value (ρ : String → Nat → Val) : Sym → Val
  | .named x i => ρ x i
  | .push (.literal n) => .word n
  | .push (.label l) => .addr l

/-- The stack of values of a stack of symbols. -/
def vals (ρ : String → Nat → Val) (st : List Sym) : Stack := st.reverse.map (Sym.value ρ)

theorem vals_append (ρ : String → Nat → Val) (st : List Sym) (x : Sym) : vals ρ (st ++ [x]) = x.value ρ :: vals ρ st := by
  simp [vals]

theorem vals_get (ρ : String → Nat → Val) {st : List Sym} {n : Nat} (h1 : 1 ≤ n) (hn : n ≤ st.length) {x : Sym} (hx : st[st.length - n]? = some x) :
    (vals ρ st)[n - 1]? = some (x.value ρ) := by
  unfold vals
  rw [List.getElem?_map, List.getElem?_reverse (by omega)]
  have : st.length - 1 - (n - 1) = st.length - n := by omega
  rw [this, hx]
  rfl

theorem get_append {s rest : Stack} {k : Nat} {x : Val} (h : s[k]? = some x) : (s ++ rest)[k]? = some x := by
  rw [List.getElem?_append_left]
  · exact h
  · exact (List.getElem?_eq_some_iff.1 h).1

/-- A step on symbols is a step on values. -/
theorem applyTo_sound {op : StackOp} {st st' : List Sym} (h : op.applyTo st = some st') (hk : known op.intoItem = true)
    (ρ : String → Nat → Val) (rest : Stack) : pureItem op.intoItem (vals ρ st ++ rest) = some (vals ρ st' ++ rest) := by
  cases op with
  | push t =>
    simp only [StackOp.applyTo, Option.some.injEq] at h
    subst h
    rw [vals_append]
    cases t <;> rfl
  | pop =>
    simp only [StackOp.applyTo] at h
    split at h
    · simp at h
    · rename_i hne
      simp only [Option.some.injEq] at h
      subst h
      have e : st = st.dropLast ++ [st.getLast hne] := (List.dropLast_concat_getLast hne).symm
      conv => lhs; rw [e, vals_append]
      simp [StackOp.intoItem, pureItem, evmOp]
  | dup n =>
    simp only [StackOp.intoItem, known, decide_eq_true_eq] at hk
    simp only [StackOp.applyTo] at h
    split at h
    · rename_i hn
      rw [Option.map_eq_some_iff] at h
      obtain ⟨x, hx, rfl⟩ := h
      simp only [StackOp.intoItem, pureItem, evmOp]
      rw [if_pos hk, get_append (vals_get ρ hk.1 hn hx), vals_append]
      rfl
    · simp at h
  | swap n =>
    simp only [StackOp.intoItem, known, decide_eq_true_eq] at hk
    simp only [StackOp.applyTo] at h
    split at h
    · rename_i hn
      have hlt : st.length - 1 < st.length := by omega
      have hlt2 : st.length - (n + 1) < st.length := by omega
      rw [List.getElem?_eq_getElem hlt, List.getElem?_eq_getElem hlt2] at h
      simp only [Option.some.injEq] at h
      subst h
      obtain ⟨x, hx⟩ : ∃ x, st[st.length - 1] = x := ⟨_, rfl⟩
      obtain ⟨y, hy⟩ : ∃ y, st[st.length - (n + 1)] = y := ⟨_, rfl⟩
      rw [hx, hy]
      have hne : st ≠ [] := by intro e; subst e; simp at hn
      have e : st = st.dropLast ++ [x] := by
        have := (List.dropLast_concat_getLast hne).symm
        rw [List.getLast_eq_getElem, hx] at this
        exact this
      obtain ⟨t, ht⟩ : ∃ t, st.dropLast = t := ⟨_, rfl⟩
      rw [ht] at e
      subst e
      simp only [List.length_append, List.length_cons, List.length_nil, Nat.add_sub_cancel] at hn hlt2 hy ⊢
      have hi : t.length + 1 - (n + 1) = t.length - n := by omega
      simp only [Nat.zero_add, hi] at hy hlt2 ⊢
      have hy' : t[t.length - n]? = some y := by
        rw [List.getElem_append_left (by omega)] at hy
        rw [List.getElem?_eq_getElem (by omega), hy]
      rw [List.set_append_right _ _ (Nat.le_refl _), Nat.sub_self, List.set_cons_zero, List.set_append_left _ _ (by omega), vals_append, vals_append]
      simp only [StackOp.intoItem, pureItem, evmOp, List.cons_append, swapTop]
      rw [if_pos hk, get_append (vals_get ρ hk.1 (by omega) hy')]
      simp only [Option.map_some, Option.some.injEq, List.cons.injEq, true_and]
      rw [List.set_append_left _ _ (by simp [vals]; omega)]
      congr 1
      unfold vals
      rw [← List.map_set]
      congr 1
      apply List.ext_getElem?
      intro k
      by_cases hk' : k < t.length
      · rw [List.getElem?_set, List.getElem?_reverse hk', List.getElem?_reverse (by simpa using hk'), List.getElem?_set]
        simp only [List.length_set, List.length_reverse]
        by_cases hc : n - 1 = k
        · subst hc
          rw [if_pos rfl, if_pos hk', if_pos (by omega), if_pos (by omega)]
        · rw [if_neg hc, if_neg (by omega)]
      · rw [List.getElem?_eq_none (by simp; omega), List.getElem?_eq_none (by simp; omega)]
    · simp at h

/-- A path from one stack of symbols to another. -/
def applyAll : List StackOp → List Sym → Option (List Sym)
  | [], st => some st
  | op :: ops, st => (op.applyTo st).bind (applyAll ops)

theorem applyAll_sound {ρ : String → Nat → Val} {rest : Stack} : ∀ {path : List StackOp} {st st' : List Sym}, applyAll path st = some st' →
    (∀ i ∈ path.map StackOp.intoItem, known i = true) → pures (path.map StackOp.intoItem) (vals ρ st ++ rest) = some (vals ρ st' ++ rest) := by
  intro path
  induction path with
  | nil => intro st st' h _; simp only [applyAll, Option.some.injEq] at h; subst h; rfl
  | cons op ops ih =>
    intro st st' h hk
    simp only [applyAll, Option.bind_eq_some_iff] at h
    obtain ⟨s1, h1, h2⟩ := h
    simp only [List.map_cons, pures]
    rw [applyTo_sound h1 (hk _ (by simp)) ρ rest]
    exact ih h2 (fun i hi => hk i (by simp only [List.map_cons, List.mem_cons]; exact .inr hi))

/-! ## The search -/

/-- Parents in `node_info` lead to their children. -/
def InfoOk (info : Info) : Prop := ∀ st c par op, info.get st = some (c, some (par, op)) → op.applyTo par = some st

theorem find_filter_ne {info : Info} {st st' : List Sym} (h : st ≠ st') :
    (info.filter (fun e => decide (e.1 ≠ st))).find? (fun e => decide (e.1 = st')) = info.find? (fun e => decide (e.1 = st')) := by
  induction info with
  | nil => rfl
  | cons e r ih =>
    by_cases he : e.1 = st
    · have hne : ¬ e.1 = st' := fun e' => h (he.symm.trans e')
      rw [List.filter_cons_of_neg (by simp [he]), List.find?_cons_of_neg (by simp [hne]), ih]
    · rw [List.filter_cons_of_pos (by simp [he])]
      by_cases he' : e.1 = st'
      · rw [List.find?_cons_of_pos (by simp [he']), List.find?_cons_of_pos (by simp [he'])]
      · rw [List.find?_cons_of_neg (by simp [he']), List.find?_cons_of_neg (by simp [he']), ih]

theorem get_put (info : Info) (st st' : List Sym) (v) :
    (info.put st v).get st' = if st = st' then some v else info.get st' := by
  unfold Info.put Info.get
  by_cases h : st = st'
  · rw [List.find?_cons_of_pos (by simp [h]), if_pos h]
  · rw [List.find?_cons_of_neg (by simp [h]), if_neg h, find_filter_ne h]

theorem expandOps_ok {node : Node} : ∀ {ops : List StackOp} {queue : List Node} {info : Info}, InfoOk info → InfoOk (expandOps node ops queue info).2 := by
  intro ops
  induction ops with
  | nil => intro queue info h; exact h
  | cons op ops ih =>
    intro queue info h
    simp only [expandOps]
    cases ha : op.applyTo node.stack with
    | none => exact ih h
    | some nb =>
      dsimp only
      split
      · exact ih h
      · apply ih
        intro st c par op' hg
        rw [get_put] at hg
        split at hg
        · rename_i e
          simp only [Option.some.injEq, Prod.mk.injEq] at hg
          obtain ⟨_, rfl, rfl⟩ := hg
          rw [← e]; exact ha
        · exact h st c par op' hg

theorem rewind_ok {info : Info} (h : InfoOk info) {src dst : List Sym} : ∀ {fuel : Nat} {st : List Sym} {path res : List StackOp},
    rewind info src fuel st path = some (.ok res) → applyAll path st = some dst → applyAll res src = some dst := by
  intro fuel
  induction fuel with
  | zero => intro st path res hr; simp [rewind] at hr
  | succ fuel ih =>
    intro st path res hr hp
    simp only [rewind] at hr
    split at hr
    · simp at hr
    · rename_i c par op hg
      refine ih hr ?_
      simp only [applyAll, h st c par op hg, Option.bind_some]
      exact hp
    · split at hr
      · rename_i e
        simp only [Option.some.injEq, Except.ok.injEq] at hr
        subst hr; subst e; exact hp
      · simp at hr

theorem searchLoop_ok {order : Nat → List (List Nat) → List (List Nat)} {src dst : List Sym} {targets : List Target} :
    ∀ {fuel : Nat} {queue : List Node} {info : Info} {path : List StackOp}, InfoOk info →
    searchLoop order src dst targets fuel queue info = some (.ok path) → applyAll path src = some dst := by
  intro fuel
  induction fuel with
  | zero => intro queue info path _ h; simp [searchLoop] at h
  | succ fuel ih =>
    intro queue info path hi h
    simp only [searchLoop] at h
    split at h
    · simp at h
    · split at h
      · rename_i e
        exact rewind_ok hi h (by rw [e]; rfl)
      · split at h
        · simp at h
        · split at h
          · exact ih hi h
          · split at h
            · simp at h
            · exact ih (expandOps_ok hi) h

theorem shortestPath_ok {order : Nat → List (List Nat) → List (List Nat)} {fuel : Nat} {src dst : List Sym} {targets : List Target} {path : List StackOp}
    (h : shortestPath order fuel src dst targets = some (.ok path)) : applyAll path src = some dst := by
  refine searchLoop_ok ?_ h
  intro st c par op hg
  unfold Info.get at hg
  by_cases e : src = st
  · rw [List.find?_cons_of_pos (by simp [e])] at hg
    simp at hg
  · rw [List.find?_cons_of_neg (by simp [e])] at hg
    simp at hg

/-! ## The pattern -/

theorem vals_left (ρ : String → Nat → Val) (names : List Placeholder) : vals ρ (symsOf names).reverse = leftOf ρ names := by
  unfold vals symsOf leftOf
  rw [List.reverse_reverse, List.map_flatMap]
  congr 1
  funext p
  simp only [block, List.map_map]
  rfl

theorem vals_right (ρ : String → Nat → Val) (names : List Placeholder) (rs : List Replacement) :
    vals ρ (wanted names rs).reverse = rightOf ρ names rs := by
  unfold vals wanted rightOf
  rw [List.reverse_reverse, List.map_flatMap]
  congr 1
  funext r
  cases r with
  | literal n => rfl
  | label l => rfl
  | identifier x =>
    dsimp only [blockSize]
    cases h : names.reverse.find? (fun p => decide (p.name = x)) with
    | none => rfl
    | some p =>
      simp only [Option.map_some, block, List.map_map]
      rfl

theorem intoItem_pure (op : StackOp) : isPure op.intoItem = true := by cases op <;> rfl

/-- C46. Whatever `%stack` is expanded to turns every stack that begins with entries named by the left side into the stack that
begins with the entries asked for by the right side, and leaves the entries below alone; for every pattern, every order of iteration
over hash maps and every stack. -/
theorem C46_stack (order : Nat → List (List Nat) → List (List Nat)) (fuel : Nat) (names : List Placeholder) (rs : List Replacement) (items : List Item)
    (h : expandStack order fuel names rs = some (.ok items)) (hk : ∀ i ∈ items, known i = true)
    (ρ : String → Nat → Val) (rest : Stack) : Leads items (leftOf ρ names ++ rest) (rightOf ρ names rs ++ rest) := by
  unfold expandStack at h
  dsimp only at h
  split at h
  · simp at h
  · simp at h
  · rename_i path hp
    simp only [Option.some.injEq, Except.ok.injEq] at h
    subst h
    have hs := applyAll_sound (ρ := ρ) (rest := rest) (shortestPath_ok hp) hk
    rw [vals_left, vals_right] at hs
    intro W ext code cont w n
    rw [run_pures, hs]
    intro i hi
    obtain ⟨op, _, rfl⟩ := List.mem_map.1 hi
    exact intoItem_pure op

/-! ## Examples, and C72 -/

/-- `%stack (a, b) -> (b, 7, a, 7, a)`. -/
def twoNames : List Placeholder := [⟨"a", 1⟩, ⟨"b", 1⟩]
def fiveEntries : List Replacement := [.identifier "b", .literal 7, .identifier "a", .literal 7, .identifier "a"]

theorem five_first : expandStack (fun _ l => l) 300 twoNames fiveEntries =
    some (.ok [.op (.swap 1), .op (.dup 2), .push (.literal 7), .push (.literal 7), .op (.swap 3)]) := by decide +kernel

theorem five_second : expandStack (fun _ l => l.reverse) 300 twoNames fiveEntries =
    some (.ok [.op (.dup 1), .push (.literal 7), .push (.literal 7), .op (.swap 3), .op (.swap 4)]) := by decide +kernel

/-- The hypotheses of `C46_stack` are met. -/
example (x y : Val) (rest : Stack) :
    Leads [.op (.swap 1), .op (.dup 2), .push (.literal 7), .push (.literal 7), .op (.swap 3)]
      (x :: y :: rest) (y :: .word 7 :: x :: .word 7 :: x :: rest) :=
  C46_stack _ _ _ _ _ five_first (by decide) (fun n _ => if n = "a" then x else y) rest

/-- Blocks, a label, dropped entries: `%stack (p: 2, q, r) -> (r, out, p)`. -/
def blocks : List Placeholder := [⟨"p", 2⟩, ⟨"q", 1⟩, ⟨"r", 1⟩]
def blocksTo : List Replacement := [.identifier "r", .identifier "out", .identifier "p"]

theorem blocks_expanded : expandStack (fun _ l => l) 3000 blocks blocksTo =
    some (.ok [.op (.swap 2), .op .pop, .op (.swap 2), .push (.label "out"), .op (.swap 1)]) := by decide +kernel

example (p0 p1 q r : Val) (rest : Stack) :
    Leads [.op (.swap 2), .op .pop, .op (.swap 2), .push (.label "out"), .op (.swap 1)]
      (p0 :: p1 :: q :: r :: rest) (r :: .addr "out" :: p0 :: p1 :: rest) :=
  C46_stack _ _ _ _ _ blocks_expanded (by decide)
    (fun n i => if n = "p" then (if i = 0 then p0 else p1) else if n = "q" then q else r) rest

/-- C72: assembling the same pattern gives the same instructions in every run. `order` and `order'` are the orders in which the
hash maps of two runs happen to be iterated. -/
def C72_statement : Prop :=
  ∀ (names : List Placeholder) (rs : List Replacement) (order order' : Nat → List (List Nat) → List (List Nat)) (fuel fuel' : Nat) (items items' : List Item),
    (∀ k l, (order k l).Perm l) → (∀ k l, (order' k l).Perm l) →
    expandStack order fuel names rs = some (.ok items) → expandStack order' fuel' names rs = some (.ok items') → items = items'

/-- Violated: the order of iteration in `combine_cycles` decides between two paths of equal cost. -/
theorem C72_violated : ¬ C72_statement := by
  intro h
  have := h twoNames fiveEntries _ _ 300 300 _ _ (fun _ l => List.Perm.refl l) (fun _ l => List.reverse_perm l) five_first five_second
  revert this
  decide

end Verif.Kernel
