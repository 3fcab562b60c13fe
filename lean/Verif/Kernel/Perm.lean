/-!
# Permutations of the stack (`cpu/kernel/stack/permutations.rs`): model

Lists here have the tip of the stack first. `none`: the code panics.
-/
namespace Verif.Kernel.Perm

variable {α : Type} [DecidableEq α]

/-- `is_permutation` (`permutations.rs:221-223`): equality of the maps from values to numbers of occurrences. -/
def isPermutation (a b : List α) : Bool := a.isPerm b

/-- `loc_b.get_mut(x).unwrap().pop().unwrap()` (`permutations.rs:112, 118`). The map `loc_b` from values to increasing lists of
positions is kept as one increasing list `loc` of positions; the positions of `x` are those at which `b` holds `x`. -/
def popLoc (b : List α) (loc : List Nat) (x : α) : Option (Nat × List Nat) :=
  match (loc.filter (fun j => b[j]? = some x)).getLast? with
  | none => none
  | some j => some (j, loc.erase j)

/-- The loop of `find_permutation` that follows a cycle (`permutations.rs:112-119`), `j` being the current position. Returns the
cycle, the positions that are done and those left in `loc_b`. The loop gets fuel. -/
def follow (a b : List α) (i : Nat) : Nat → Nat → List Nat → List Nat → List Nat → Option (List Nat × List Nat × List Nat)
  | 0, _, _, _, _ => none
  | fuel + 1, j, cycl, done, loc =>
    if j = i then some (cycl, done, loc)
    else
      match a[j]? with
      | none => none
      | some x =>
        match popLoc b loc x with
        | none => none
        | some (j', loc') => follow a b i fuel j' (cycl ++ [j]) (j :: done) loc'

/-- The main loop of `find_permutation` (`permutations.rs:97-122`). -/
def cyclesFrom (a b : List α) : List Nat → List Nat → List Nat → List (List Nat) → Option (List (List Nat))
  | [], _, _, perm => some perm
  | i :: rest, done, loc, perm =>
    if i ∈ done then cyclesFrom a b rest done loc perm
    else
      match a[i]? with
      | none => none
      | some x =>
        match popLoc b loc x with
        | none => none
        | some (j, loc) =>
          match follow a b i (a.length + 1) j [i] (i :: done) loc with
          | none => none
          | some (cycl, done, loc) => cyclesFrom a b rest done loc (perm ++ [cycl])

/-- The positions that already hold the right value (`permutations.rs:78-85`). -/
def correct (a b : List α) : List Nat := (List.range a.length).filter (fun i => a[i]? = b[i]?)

/-- The other positions. -/
def wrong (a b : List α) : List Nat := (List.range a.length).filter (fun i => a[i]? ≠ b[i]?)

/-- `find_permutation` (`permutations.rs:63-124`). -/
def findPermutation (a b : List α) : Option (List (List Nat)) :=
  if isPermutation a b then
    cyclesFrom a b (List.range a.length) (correct a b) (wrong a b) (if 0 ∈ correct a b then [[0]] else [])
  else none

/-- The values of `all_a_positions` (`permutations.rs:137-140`) in the order of first occurrence: for every value the positions at
which it occurs. -/
def positions (a : List α) : List (List Nat) :=
  a.eraseDups.map (fun x => (List.range a.length).filter (fun i => a[i]? = some x))

/-- The inner loops of `combine_cycles` (`permutations.rs:149-184`) for one list of positions: the cycle joined so far, the place of
its first term in it, and the cycles without such a term. -/
def joinOver (ps : List Nat) : List (List Nat) → List Nat → Nat → List (List Nat) → List Nat × List (List Nat)
  | [], joined, _, new => (joined, new)
  | cycl :: rest, joined, pos, new =>
    match ps.find? (fun t => decide (t ∈ cycl)) with
    | none => joinOver ps rest joined pos (new ++ [cycl])
    | some t =>
      if joined = [] then joinOver ps rest cycl (cycl.idxOf t) new
      else joinOver ps rest
        (joined.take (pos + 1) ++ cycl.drop (cycl.idxOf t + 1) ++ cycl.take (cycl.idxOf t + 1) ++ joined.drop (pos + 1)) pos new

/-- One iteration of the outer loop (`permutations.rs:145-188`). -/
def combineOne (perm : List (List Nat)) (ps : List Nat) : List (List Nat) :=
  if ps.length = 1 then perm
  else
    let r := joinOver ps perm [] 0 []
    if r.1 = [] then r.2 else r.2 ++ [r.1]

/-- `combine_cycles` (`permutations.rs:128-191`). `order` is the list of the values of `all_a_positions` in the order in which the
`HashMap` yields them; the standard library promises nothing about it, and it differs from run to run. -/
def combineCycles (perm : List (List Nat)) (order : List (List Nat)) : List (List Nat) :=
  if perm.length = 1 then perm else order.foldl combineOne perm

/-- `permutation_to_transpositions` (`permutations.rs:194-210`) for one cycle. -/
def cycleTranspositions (cycl : List Nat) : List Nat :=
  let n := cycl.length
  if 0 ∈ cycl then (List.range (n - 1)).map (fun i => cycl.getD ((n + cycl.idxOf 0 - (i + 1)) % n) 0)
  else (List.range (n + 1)).map (fun i => cycl.getD ((n - i) % n) 0)

/-- `permutation_to_transpositions` (`permutations.rs:194-210`). -/
def transpositions (perm : List (List Nat)) : List Nat := perm.flatMap cycleTranspositions

/-- Steps 1 to 3 of `get_stack_ops_for_perm` (`permutations.rs:39-41`), for lists with the tip first; `order` sees the values of the map
`all_a_positions` and yields them in another order. -/
def planFor (order : List (List Nat) → List (List Nat)) (a b : List α) : Option (List Nat) :=
  (findPermutation a b).map (fun perm => transpositions (combineCycles perm (order (positions a))))

end Verif.Kernel.Perm
