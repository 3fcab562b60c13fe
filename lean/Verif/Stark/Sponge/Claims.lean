import Verif.Stark.Sponge.Strings
import Verif.Stark.Sponge.Eval

/-! C89: hashes that are exported are right. -/

namespace Verif.Stark.Sponge

open Finset Arith

/-- **C89**, full statement: in accepted tables, every hash the CPU is shown is the Keccak-256 hash of the bytes read from memory at the address and
time shown. -/
def C89_statement : Prop := ∀ n T nL L perms, 136 * n < P → Accepted n T nL L perms → ∀ h, Exports n T h → h.Right n T

/-! ### Any digest -/

/-- Four cells with a given little-endian value `l` and a given big-endian value `b`: there is one, with two cells zero, for all `l` and `b`. -/
def mix (l b : F) (j : ℕ) : F :=
  let d := (l - 16777216 * b) * (1 - 16777216 * 16777216)⁻¹
  if j = 0 then d else if j = 3 then b - 16777216 * d else 0

theorem mix_ne : (1 : F) - 16777216 * 16777216 ≠ 0 := by
  intro h
  have h1 : ((281474976710655 : ℕ) : F) = ((0 : ℕ) : F) := by push_cast; linear_combination -h
  exact absurd (lift_nat h1 (by decide) (by decide)) (by decide)

theorem mix_le (l b : F) : mix l b 0 + mix l b 1 * 256 + mix l b 2 * 65536 + mix l b 3 * 16777216 = l := by
  have h0 : mix l b 0 = (l - 16777216 * b) * (1 - 16777216 * 16777216)⁻¹ := rfl
  have h1 : mix l b 1 = 0 := rfl
  have h2 : mix l b 2 = 0 := rfl
  have h3 : mix l b 3 = b - 16777216 * mix l b 0 := rfl
  have e : mix l b 0 * (1 - 16777216 * 16777216) = l - 16777216 * b := by rw [h0, mul_assoc, inv_mul_cancel₀ mix_ne, mul_one]
  rw [h1, h2, h3]
  linear_combination e

theorem mix_be (l b : F) : mix l b 0 * 16777216 + mix l b 1 * 65536 + mix l b 2 * 256 + mix l b 3 = b := by
  have h1 : mix l b 1 = 0 := rfl
  have h2 : mix l b 2 = 0 := rfl
  have h3 : mix l b 3 = b - 16777216 * mix l b 0 := rfl
  rw [h1, h2, h3]
  ring

/-- The cells of a digest that shows the words `w` to the CPU, most significant first, though the state is `out`. -/
def forge (w : ℕ → F) (out : ℕ → ℕ) (j : ℕ) : F := mix (le32 out (j / 4) : F) (w (7 - j / 4)) (j % 4)

theorem forge_ok (w : ℕ → F) (out : ℕ → ℕ) : DigestOk (forge w out) out := by
  intro k _
  unfold forge
  rw [show 4 * k / 4 = k by omega, show (4 * k + 1) / 4 = k by omega, show (4 * k + 2) / 4 = k by omega, show (4 * k + 3) / 4 = k by omega,
    show 4 * k % 4 = 0 by omega, show (4 * k + 1) % 4 = 1 by omega, show (4 * k + 2) % 4 = 2 by omega, show (4 * k + 3) % 4 = 3 by omega]
  exact mix_le _ _

/-- The only accesses are those to the bytes of the string. -/
def ReadsOnly (n : ℕ) (T : ℕ → Row F) (o : Str) : Prop :=
  ∀ a, Accesses n T a ↔ ∃ i, ∃ h : i < o.m.length, a = ⟨1, o.ctx, o.seg, o.virt + (i : F), (o.m[i] : F), o.ts⟩

/-- A table whose only accesses are those to one string shows the right hash for it only if it shows the hash of this string. -/
theorem ReadsOnly.right {n : ℕ} {T : ℕ → Row F} {o : Str} (h : ReadsOnly n T o) (hb : ∀ b ∈ o.m, b < 256) (hl : o.m.length < P) {w : ℕ → F}
    (hr : Hash.Right ⟨o.ctx, o.seg, o.virt, (o.m.length : F), o.ts, w⟩ n T) : ∀ k < 8, w k = word (BytePacking.beNat (Spec.keccak256 o.m)) k := by
  obtain ⟨m, hm, hmP, hlen, hacc, hw⟩ := hr
  have hlen : o.m.length = m.length := lift_nat hlen hl hmP
  have : m = o.m := by
    refine List.ext_getElem hlen.symm (fun j h1 h2 => ?_)
    obtain ⟨i, hi, e⟩ := (h _).1 (hacc j h1)
    have e1 : (j : F) = (i : F) := add_left_cancel (BytePacking.Access.mk.inj e).2.2.2.1
    obtain rfl := lift_nat e1 (by omega) (by omega)
    have e2 := (BytePacking.Access.mk.inj e).2.2.2.2.1
    have h3 := hm _ (List.getElem_mem h1)
    have h4 := hb _ (List.getElem_mem h2)
    exact lift_nat e2 (by unfold P; omega) (by unfold P; omega)
  rwa [this] at hw

/-- **C89 fails**: the cells of the digest need not hold bytes. The constraints and the lookups in the Keccak table use them as numbers with the least
significant byte first, four at a time, and the CPU is shown the numbers with the most significant byte first; nothing says that the cells are bytes.
So for every string and *every* eight words a table is accepted that reads the string from memory and shows the CPU these words as its hash. -/
theorem C89_violated_digest (o : Str) (hb : ∀ b ∈ o.m, b < 256) (n : ℕ) (hn : 256 ≤ n) (hl : o.m.length / 136 + 1 ≤ n) (w : ℕ → F) :
    ∃ T nL L perms, Accepted n T nL L perms ∧ ReadsOnly n T o ∧ Exports n T ⟨o.ctx, o.seg, o.virt, (o.m.length : F), o.ts, w⟩ := by
  have hc := Str.honest_chained hb (forge_ok w (o.state (o.full + 1)))
  have hlen : (o.honest (forge w (o.state (o.full + 1)))).length ≤ n := by rw [Str.honest, Str.cells_length]; exact hl
  refine ⟨_, _, _, _, (hc.chain hlen).accepted_of_permuted hn 0 (fun e he op hop => List.mem_flatMap.2 ⟨e, he, hop⟩) Str.honest_permuted,
    fun a => (accesses_iff hlen).trans (Str.accesses hc.ok), ?_⟩
  refine shows_of_cell (i := o.full) (by rw [Str.honest, Str.cells_getElem?, if_pos (by omega)]) (show o.m.length / 136 < n by omega) (Str.shows hc.ok (fun k hk => ?_))
  have hd : ∀ j < 32, (o.cell o.state (fun k => o.state (k + 1)) (fun k => if k = o.full then forge w (o.state (o.full + 1)) else fun j => (o.state (k + 1) j : F)) o.full).row
      (DIG j) = forge w (o.state (o.full + 1)) j := fun j hj => (row_dig _ hj).trans (by simp only [Str.cell, if_true])
  unfold be4
  simp only [DIG, add_assoc] at hd ⊢
  rw [hd _ (by omega), hd _ (by omega), hd _ (by omega), hd _ (by omega)]
  unfold forge
  rw [show 4 * (7 - k) / 4 = 7 - k by omega, show (4 * (7 - k) + 1) / 4 = 7 - k by omega, show (4 * (7 - k) + 2) / 4 = 7 - k by omega,
    show (4 * (7 - k) + 3) / 4 = 7 - k by omega, show 4 * (7 - k) % 4 = 0 by omega, show (4 * (7 - k) + 1) % 4 = 1 by omega,
    show (4 * (7 - k) + 2) % 4 = 2 by omega, show (4 * (7 - k) + 3) % 4 = 3 by omega, show 7 - (7 - k) = k by omega]
  exact (by ring : _ = _).trans (mix_be _ _)

/-- The hash of the empty string, as a number, in words. -/
theorem word_empty : word (BytePacking.beNat (Spec.keccak256 [])) 0 = ((0x5d85a470 : ℕ) : F) := by
  rw [Spec.keccak256_empty]
  exact congrArg (Nat.cast (R := F)) (by decide +kernel)

/-- The empty string is given the hash zero. -/
theorem C89_violated : ¬ C89_statement := by
  intro h
  obtain ⟨T, nL, L, perms, ha, hr, he⟩ := C89_violated_digest ⟨0, 0, 0, 1, []⟩ (by simp) 256 le_rfl (by decide) (fun _ => 0)
  have := hr.right (by simp) (by decide) (h _ _ _ _ _ (by decide) ha _ he) 0 (by decide)
  rw [word_empty] at this
  exact absurd (lift_nat (Nat.cast_zero.trans this) (by decide) (by decide)) (by decide)

/-! ### The last row -/

/-- The empty string at a given time. -/
def filler (t : ℕ) : Str := ⟨0, 0, 0, (t : F), []⟩

theorem filler_full (t : ℕ) : (filler t).full = 0 := by simp [Str.full, filler]

/-- The rows of empty strings at the times 0, …, 254. -/
def fillers : List Cell := ((List.range 255).map (fun t => (filler t).honest (fun j => ((filler t).state 1 j : F)))).flatten

theorem fillers_length : fillers.length = 255 := by
  unfold fillers
  have : ∀ l : List ℕ, ((l.map (fun t => (filler t).honest (fun j => ((filler t).state 1 j : F)))).flatten).length = l.length := by
    intro l
    induction l with
    | nil => rfl
    | cons a l ih =>
      rw [List.map_cons, List.flatten_cons, List.length_append, ih, Str.honest, Str.cells_length, filler_full, List.length_cons]
      omega
  rw [this, List.length_range]

theorem fillers_chained : Chained fillers := by
  refine Chained.flatten (fun a ha => ?_)
  obtain ⟨t, -, rfl⟩ := List.mem_map.1 ha
  refine Str.honest_chained (by simp [filler]) ?_
  rw [filler_full]
  exact digestOk_bytes _

theorem fillers_permuted : ∀ e ∈ fillers, e.Permuted := by
  intro e he
  obtain ⟨a, ha, he⟩ := List.mem_flatten.1 he
  obtain ⟨t, -, rfl⟩ := List.mem_map.1 ha
  exact Str.honest_permuted e he

/-- A final block that holds anything. -/
def lastCell (b : ℕ → ℕ) : Cell :=
  ⟨false, 0, 0, 0, 255, 0, 0, fun _ => 0, b, Spec.permute (Spec.xorBlock (fun _ => 0) b), fun j => (Spec.permute (Spec.xorBlock (fun _ => 0) b) j : F)⟩

theorem lastCell_ok {b : ℕ → ℕ} (hb : ∀ i < 136, b i < 256) : (lastCell b).Ok :=
  ⟨by show (if false = true then _ else 0 ≤ 135); simp, fun _ _ => by show 0 < 256; decide, hb, fun _ _ => Spec.toBytes_lt _ _, digestOk_bytes _⟩

/-- **C89 fails**: the constraints on the padding do not apply in the last row of the table. For every 136 bytes a table of 256 rows is accepted that
shows the CPU, as the hash of the empty string, the permutation of these bytes, whether they are the padding or not, with no byte read from memory. -/
theorem C89_violated_padding (b : ℕ → ℕ) (hb : ∀ i < 136, b i < 256) :
    ∃ T nL L perms, Accepted 256 T nL L perms ∧ (∀ i < 256, ∀ j < 32, ∃ x : ℕ, x < 256 ∧ T i (DIG j) = (x : F)) ∧ (∀ a, ¬ Accesses 256 T a) ∧
      Exports 256 T ⟨0, 0, 0, 0, 255, word (BytePacking.beNat ((List.range 32).map (Spec.permute (Spec.xorBlock (fun _ => 0) b))))⟩ := by
  have hlen : (fillers ++ [lastCell b]).length = 256 := by simp [fillers_length]
  have hok : ∀ e ∈ fillers ++ [lastCell b], e.Ok := fun e he => (List.mem_append.1 he).elim (fillers_chained.ok e) (fun h => by
    rw [List.mem_singleton.1 h]; exact lastCell_ok hb)
  have hz : ∀ e, [lastCell b][0]? = some e → e.abs = 0 ∧ ∀ i < 200, e.st i = 0 := by
    intro e he
    obtain rfl : lastCell b = e := by simpa using he
    exact ⟨rfl, fun _ _ => rfl⟩
  have hpermuted : ∀ e ∈ fillers ++ [lastCell b], e.Permuted := fun e he => (List.mem_append.1 he).elim (fillers_permuted e) (fun h => by
      rw [List.mem_singleton.1 h]; exact fun _ _ => rfl)
  have hchain : Chain 256 (fillers ++ [lastCell b]) := {
    ok := hok
    len := hlen.le
    padded := by
      intro i e he hi
      rw [List.getElem?_append_left (by rw [fillers_length]; omega)] at he
      exact fillers_chained.padded e (List.mem_of_getElem? he)
    first := by
      intro e he
      rw [List.getElem?_append_left (by rw [fillers_length]; omega)] at he
      exact fillers_chained.first e he
    next := next_append fillers_chained.next (by intro i e f _ h; simp at h) fillers_chained.last hz
    last := by intro e _ h; omega }
  have hlast : (fillers ++ [lastCell b])[255]? = some (lastCell b) := by
    rw [List.getElem?_append_right (by rw [fillers_length]), fillers_length]; rfl
  have hshape : ∀ e ∈ fillers ++ [lastCell b], e.pad = 0 ∧ ∃ d : ℕ → ℕ, (∀ j, d j < 256) ∧ ∀ j, e.dig j = (d j : F) := by
    intro e he
    rcases List.mem_append.1 he with he | he
    · obtain ⟨a, ha, he⟩ := List.mem_flatten.1 he
      obtain ⟨t, -, rfl⟩ := List.mem_map.1 ha
      obtain ⟨k, hk, rfl⟩ := List.mem_map.1 he
      have hk : k = 0 := by have := List.mem_range.1 hk; rw [filler_full] at this; omega
      subst hk
      refine ⟨?_, (filler t).state 1, fun j => Spec.sponge_lt _ _ _, fun j => ?_⟩
      · show (if 0 < (filler t).full then 136 else 0 % 136) = 0
        rw [filler_full, if_neg (lt_irrefl 0)]
      · simp only [Str.cell, filler_full, if_true]
    · rw [List.mem_singleton.1 he]
      exact ⟨rfl, _, fun j => Spec.toBytes_lt _ j, fun j => rfl⟩
  refine ⟨_, _, _, _, hchain.accepted_of_permuted le_rfl 0 (fun e he op hop => List.mem_flatMap.2 ⟨e, he, hop⟩) hpermuted, fun i hi j hj => ?_, fun a ha => ?_,
    shows_of_cell hlast (by decide) ?_⟩
  · have hi' : i < (fillers ++ [lastCell b]).length := by omega
    obtain ⟨-, d, hd, hd'⟩ := hshape _ (List.getElem_mem hi')
    refine ⟨d j, hd j, ?_⟩
    rw [cellTrace_row (List.getElem?_eq_getElem hi') (by simp only [DIG]; omega), row_dig _ hj, hd']
  · obtain ⟨e, he, j, hj, h1, -⟩ := (accesses_iff hlen.le).1 ha
    rw [(hok e he).memFilter hj, (hshape e he).1, if_neg (by omega)] at h1
    exact absurd h1 zero_ne_one
  · obtain ⟨h1, h2, h3, h4, h5, h6, -⟩ := (lastCell_ok hb).shows rfl
    exact ⟨h1, h2, h3, h4, h5.trans Nat.cast_zero, h6, fun k hk => Cell.be4_bytes (fun j _ => rfl) (fun j _ => Spec.toBytes_lt _ _) hk⟩

/-- With 136 zero bytes in place of the padding, the empty string is given a hash that is not its own. -/
theorem C89_violated_last_row : ∃ T nL L perms h, Accepted 256 T nL L perms ∧ (∀ i < 256, ∀ j < 32, ∃ x : ℕ, x < 256 ∧ T i (DIG j) = (x : F)) ∧
    Exports 256 T h ∧ ¬ h.Right 256 T := by
  obtain ⟨T, nL, L, perms, ha, hd, hno, he⟩ := C89_violated_padding (fun _ => 0) (fun _ _ => by decide)
  refine ⟨T, nL, L, perms, _, ha, hd, he, fun hr => ?_⟩
  have hro : ReadsOnly 256 T ⟨0, 0, 0, 255, []⟩ := fun a => ⟨fun h => absurd h (hno a), fun ⟨i, h, _⟩ => absurd h (Nat.not_lt_zero i)⟩
  have := hro.right (by simp) (by decide) (w := word (BytePacking.beNat ((List.range 32).map (Spec.permute (Spec.xorBlock (fun _ => 0) (fun _ => 0))))))
    (by rw [List.length_nil, Nat.cast_zero]; exact hr) 0 (by decide)
  have hx : Spec.xorBlock (fun _ => 0) (fun _ => 0) = fun _ => 0 := by funext i; unfold Spec.xorBlock; simp
  rw [word_empty, hx, Spec.permute_zero] at this
  exact absurd (Keccak.cast_inj (Nat.mod_lt _ (by decide)) (by decide) this) (by decide +kernel)

/-! ### Blocks in another order -/

/-- The string with the second and the third block exchanged. -/
def swapBlocks (m : List ℕ) : List ℕ := m.take 136 ++ (m.drop 272).take 136 ++ (m.drop 136).take 136 ++ m.drop 408

def swap12 (k : ℕ) : ℕ := if k = 1 then 2 else if k = 2 then 1 else k

theorem swapBlocks_length {m : List ℕ} (h : 408 ≤ m.length) : (swapBlocks m).length = m.length := by
  simp only [swapBlocks, List.length_append, List.length_take, List.length_drop]
  omega

theorem swapBlocks_getElem? {m : List ℕ} (h : 408 ≤ m.length) (k : ℕ) {i : ℕ} (hi : i < 136) : (swapBlocks m)[136 * k + i]? = m[136 * swap12 k + i]? := by
  unfold swapBlocks swap12
  simp only [List.getElem?_append, List.getElem?_take, List.getElem?_drop, List.length_append, List.length_take, List.length_drop]
  split_ifs <;> first | omega | exact congrArg (m[·]?) (by omega)

theorem blockOf_swap {m : List ℕ} (h : 408 ≤ m.length) {k : ℕ} (hk : k < m.length / 136 + 1) {i : ℕ} (hi : i < 136) :
    Spec.blockOf (Spec.pad (swapBlocks m)) k i = Spec.blockOf (Spec.pad m) (swap12 k) i := by
  have hl := swapBlocks_length h
  have hs : swap12 k < m.length / 136 + 1 := by unfold swap12; split_ifs <;> omega
  unfold Spec.blockOf
  by_cases hlt : 136 * k + i < m.length
  · have hlt' : 136 * swap12 k + i < m.length := by unfold swap12; split_ifs <;> omega
    rw [pad_getD_lt (by omega), pad_getD_lt hlt', List.getD_eq_getElem?_getD, List.getD_eq_getElem?_getD, swapBlocks_getElem? h k hi]
  · have e : swap12 k = k := by unfold swap12; split_ifs <;> omega
    have ek : k = m.length / 136 := by omega
    have e1 := pad_getD_ge (m := swapBlocks m) (x := i) (by omega) hi
    have e2 := pad_getD_ge (m := m) (x := i) (by omega) hi
    rw [hl, ← ek] at e1
    rw [← ek] at e2
    rw [e, e1, e2]

theorem keccak256_eq (m : List ℕ) : Spec.keccak256 m = (List.range 32).map (Spec.sponge (Spec.blockOf (Spec.pad m)) (m.length / 136 + 1)) := by
  rw [Spec.keccak256, Spec.pad_length, Nat.mul_div_cancel_left _ (by decide)]

theorem range_three {α : Type} (f : ℕ → α) (d : ℕ) : (List.range (3 + d)).map f = f 0 :: f 1 :: f 2 :: (List.range d).map (fun k => f (3 + k)) := by
  rw [List.range_add, List.map_append, List.map_map]; rfl

/-- **C89 fails**: all blocks of a string have the same time, and the rows of the table look up their inputs and their outputs in the Keccak table
independently of each other. So the outputs can be handed out among the blocks in another order. For every string of at least three full blocks a
table is accepted that reads the string from memory and shows the CPU the hash of the string with the second and third blocks exchanged; all cells of
digests hold bytes, and the last row is empty. -/
theorem C89_violated_order (o : Str) (hb : ∀ b ∈ o.m, b < 256) (h408 : 408 ≤ o.m.length) (n : ℕ) (hn : 256 ≤ n) (hl : o.m.length / 136 + 1 < n) :
    ∃ T nL L perms, Accepted n T nL L perms ∧ (∀ i < n, ∀ j < 32, ∃ x : ℕ, x < 256 ∧ T i (DIG j) = (x : F)) ∧ active (T (n - 1)) = 0 ∧
      ReadsOnly n T o ∧
      Exports n T ⟨o.ctx, o.seg, o.virt, (o.m.length : F), o.ts, word (BytePacking.beNat (Spec.keccak256 (swapBlocks o.m)))⟩ := by
  obtain ⟨d, hd⟩ : ∃ d, o.full + 1 = 3 + d := ⟨o.full - 2, by unfold Str.full; omega⟩
  let S : ℕ → ℕ → ℕ := Spec.sponge (Spec.blockOf (Spec.pad (swapBlocks o.m)))
  let st : ℕ → ℕ → ℕ := fun k => S (swap12 k)
  let out : ℕ → ℕ → ℕ := fun k => S (swap12 (k + 1))
  let cells := o.cells st out (fun k j => (out k j : F))
  have hS : ∀ k i, S k i < 256 := fun k i => Spec.sponge_lt _ k i
  have hc : Chained cells := Str.chained hb (fun _ _ => rfl) (fun _ _ _ _ => rfl) (fun k i _ => hS _ i) (fun k _ => digestOk_bytes _)
  have hlen : cells.length ≤ n := by rw [Str.cells_length]; exact hl.le
  have hlen' : cells.length = 3 + d := by rw [Str.cells_length]; exact hd
  -- the permutation of the state of the `k`-th row
  have hperm : ∀ k < o.full + 1, ∀ i < 200, S (swap12 k + 1) i = Spec.permute (Spec.xorBlock (st k) (Spec.blockOf (Spec.pad o.m) k)) i := by
    intro k hk i hi
    refine Spec.permute_congr (fun j _ => ?_) hi
    have hs : swap12 k < o.full + 1 := by unfold swap12; split_ifs <;> omega
    have hss : swap12 (swap12 k) = k := by unfold swap12; split_ifs <;> omega
    unfold Spec.xorBlock
    split
    · rw [blockOf_swap h408 hs (by assumption), hss]
    · rfl
  have hmap : ∀ {α : Type} (f : Cell → α), cells.map f = (List.range (3 + d)).map (fun k => f (o.cell st out (fun k j => (out k j : F)) k)) := by
    intro α f
    show ((List.range (o.full + 1)).map _).map f = _
    rw [List.map_map, hd]
    rfl
  have hacc : Accepted n (cellTrace n cells) (Logic.traceHeight (cells.flatMap (fun e => logicOps e.st e.blk)) 0)
      (Logic.traceRow (cells.flatMap (fun e => logicOps e.st e.blk))) (cells.map Cell.perm) := by
    refine (hc.chain hlen).accepted hn 0 (fun e he op hop => List.mem_flatMap.2 ⟨e, he, hop⟩) ?_ ?_
    · rw [List.map_map]; exact .refl _
    · have e1 : (cells.map Cell.perm).map (fun p => (stateWords (Keccak.Spec.keccakF p.1), p.2)) =
          (List.range (3 + d)).map (fun k => (stateWords (Spec.ofBytes (S (swap12 k + 1))), o.ts)) := by
        rw [List.map_map, hmap]
        refine List.map_congr_left (fun k hk => ?_)
        have hk := List.mem_range.1 hk
        exact congrArg (·, o.ts) ((stateWords_permute _).symm.trans (stateWords_bytes (hperm k (by omega))).symm)
      have e2 : cells.map (fun e => (stateWords (Spec.ofBytes e.out), e.ts)) =
          (List.range (3 + d)).map (fun k => (stateWords (Spec.ofBytes (S (swap12 (k + 1)))), o.ts)) := hmap _
      rw [e1, e2, range_three, range_three]
      have e3 : (List.range d).map (fun k => (stateWords (Spec.ofBytes (S (swap12 (3 + k + 1)))), o.ts)) =
          (List.range d).map (fun k => (stateWords (Spec.ofBytes (S (swap12 (3 + k) + 1))), o.ts)) := by
        refine List.map_congr_left (fun k _ => ?_)
        rw [show swap12 (3 + k + 1) = 3 + k + 1 by unfold swap12; split_ifs <;> omega, show swap12 (3 + k) = 3 + k by unfold swap12; split_ifs <;> omega]
      rw [e3]
      -- the outputs 2, 1, 3 and 1, 3, 2
      exact (List.Perm.swap _ _ _).trans ((List.Perm.swap _ _ _).cons _)
  refine ⟨_, _, _, _, hacc, fun i hi j hj => ?_, ?_, fun a => (accesses_iff hlen).trans (Str.accesses hc.ok), ?_⟩
  · rcases he : cells[i]? with _ | e
    · refine ⟨0, by decide, ?_⟩
      rw [cellTrace_of (by simp only [DIG]; omega), cellRow_none he, Nat.cast_zero]
    · rw [cellTrace_row he (by simp only [DIG]; omega), row_dig _ hj]
      obtain ⟨k, -, rfl⟩ := List.mem_map.1 (List.mem_of_getElem? he)
      exact ⟨out k j, hS _ _, rfl⟩
  · rw [active_congr (fun c hc => cellTrace_of hc), cellRow_none (List.getElem?_eq_none_iff.2 (by rw [Str.cells_length]; unfold Str.full; omega)), active_zero]
  · refine shows_of_cell (i := o.full) (by rw [Str.cells_getElem?, if_pos (by omega)]) (show o.full < n by unfold Str.full; omega) (Str.shows hc.ok (fun k hk => ?_))
    rw [Cell.be4_bytes (d := out o.full) (fun j _ => rfl) (fun j _ => hS _ _) hk, keccak256_eq, swapBlocks_length h408]
    have : out o.full = S (o.m.length / 136 + 1) := by
      show S (swap12 (o.full + 1)) = _
      rw [show swap12 (o.full + 1) = o.full + 1 by unfold swap12; split_ifs <;> omega]
    rw [this]

/-- 136 bytes 0, 136 bytes 1 and 136 bytes 2 are given the hash of 136 bytes 0, 136 bytes 2 and 136 bytes 1, which is another. -/
theorem C89_violated_swap : ∃ T nL L perms h, Accepted 256 T nL L perms ∧ (∀ i < 256, ∀ j < 32, ∃ x : ℕ, x < 256 ∧ T i (DIG j) = (x : F)) ∧ active (T 255) = 0 ∧
    Exports 256 T h ∧ ¬ h.Right 256 T := by
  have hb : ∀ b ∈ Spec.text012, b < 256 := by decide +kernel
  have hlen : Spec.text012.length = 408 := by decide +kernel
  obtain ⟨T, nL, L, perms, ha, hd, h0, hro, he⟩ := C89_violated_order ⟨0, 0, 0, 1, Spec.text012⟩ hb hlen.ge 256 le_rfl (by rw [hlen]; decide)
  refine ⟨T, nL, L, perms, _, ha, hd, h0, he, fun hr => ?_⟩
  have := hro.right hb (by rw [hlen]; decide) hr 7 (by decide)
  have hsw : swapBlocks Spec.text012 = Spec.text021 := by decide +kernel
  rw [hsw, Spec.keccak256_text021, Spec.keccak256_text012] at this
  exact absurd (Keccak.cast_inj (Nat.mod_lt _ (by decide)) (Nat.mod_lt _ (by decide)) this) (by decide +kernel)

/-! ### What does hold -/

/-- **C89**, as far as it holds: if each block gets the output of its own permutation (which need not be so, `C89_violated_order`), then every hash shown
in a row other than the last (`C89_violated_padding`) whose cells of the digest hold bytes (`C89_violated_digest`) is right. Missing: these three
conditions, which the constraints do not enforce. -/
theorem C89_sponge_partial {n : ℕ} {T : ℕ → Row F} {nL : ℕ} {L : ℕ → Row F} {perms : List (Keccak.Spec.State × F)} (h : Accepted n T nL L perms)
    (hn : 136 * n < P) (hm : Matched n T) {i : ℕ} (hi : i + 1 < n) (hd : ∀ j < 32, ∃ x : ℕ, x < 256 ∧ T i (DIG j) = (x : F)) {e : Hash}
    (he : Shows (T i) e) : e.Right n T := sound h hn hm hi hd he

/-- If no two rows have the same time — all strings are shorter than 136 bytes and the CPU hashes at most one string in a cycle — each block gets the
output of its own permutation. Missing: as in `C89_sponge_partial`, but for the first condition. -/
theorem C89_short_partial {n : ℕ} {T : ℕ → Row F} {nL : ℕ} {L : ℕ → Row F} {perms : List (Keccak.Spec.State × F)} (h : Accepted n T nL L perms)
    (hn : 136 * n < P) (ht : ((activeRows n T).map (fun i => T i TS)).Nodup) {i : ℕ} (hi : i + 1 < n)
    (hd : ∀ j < 32, ∃ x : ℕ, x < 256 ∧ T i (DIG j) = (x : F)) {e : Hash} (he : Shows (T i) e) : e.Right n T :=
  sound h hn (matched_of_times h ht) hi hd he

/-- The honest rows of any strings meet the conditions. -/
theorem honest_meets {n : ℕ} {cells : List Cell} (h : Chain n cells) (hp : ∀ e ∈ cells, e.Permuted) : Matched n (cellTrace n cells) := by
  intro i hi ha
  rcases he : cells[i]? with _ | e
  · rw [active_congr (fun c hc => cellTrace_of hc), cellRow_none he, active_zero] at ha
    exact absurd ha zero_ne_one
  · have hmem := List.mem_of_getElem? he
    have hrow : ∀ c < 436, cellTrace n cells i c = e.row c := fun c hc => cellTrace_row he hc
    refine ⟨Spec.ofBytes (Spec.xorBlock e.st e.blk), ?_, ?_⟩
    · rw [keccakIn_congr _ _ hrow, (h.ok e hmem).keccakIn]
    · rw [keccakOut_congr _ _ hrow, (h.ok e hmem).keccakOut]
      exact (stateWords_bytes (hp e hmem)).trans (stateWords_permute _)

/-- A string of three blocks whose rows meet the hypotheses of `C89_sponge_partial`: the row 3 = 408 / 136 is not the last. -/
example : ∃ T nL L perms, Accepted 256 T nL L perms ∧ Matched 256 T ∧ (∀ j < 32, ∃ x : ℕ, x < 256 ∧ T (Spec.text012.length / 136) (DIG j) = (x : F)) ∧
    Shows (T (Spec.text012.length / 136)) ⟨0, 0, 0, (Spec.text012.length : F), 1, word (BytePacking.beNat (Spec.keccak256 Spec.text012))⟩ := by
  have hb : ∀ b ∈ Spec.text012, b < 256 := by decide +kernel
  have hlen : Spec.text012.length = 408 := by decide +kernel
  let o : Str := ⟨0, 0, 0, 1, Spec.text012⟩
  have hfull : o.full = 3 := by show Spec.text012.length / 136 = 3; rw [hlen]
  have hc := Str.honest_chained (o := o) hb (digestOk_bytes (o.state (o.full + 1)))
  have hl : (o.honest (fun j => (o.state (o.full + 1) j : F))).length ≤ 256 := by rw [Str.honest, Str.cells_length, hfull]; decide
  have hg : (o.honest (fun j => (o.state (o.full + 1) j : F)))[o.full]? = some (o.cell o.state (fun k => o.state (k + 1))
      (fun k => if k = o.full then fun j => (o.state (o.full + 1) j : F) else fun j => (o.state (k + 1) j : F)) o.full) := by
    rw [Str.honest, Str.cells_getElem?, if_pos (by omega)]
  have hw : ∀ k < 8, be4 (o.cell o.state (fun k => o.state (k + 1)) (fun k => if k = o.full then fun j => (o.state (o.full + 1) j : F) else
      fun j => (o.state (k + 1) j : F)) o.full).row (DIG (4 * (7 - k))) = word (BytePacking.beNat (Spec.keccak256 Spec.text012)) k := by
    intro k hk
    rw [Cell.be4_bytes (d := o.state (o.full + 1)) (fun j _ => by simp [Str.cell]) (fun j _ => Spec.sponge_lt _ _ _) hk, keccak256_eq]
    rfl
  have hs := Str.shows hc.ok hw
  refine ⟨_, _, _, _, (hc.chain hl).accepted_of_permuted le_rfl 0 (fun e he op hop => List.mem_flatMap.2 ⟨e, he, hop⟩) Str.honest_permuted,
    honest_meets (hc.chain hl) Str.honest_permuted, fun j hj => ?_, Shows.congr (fun _ hc => cellTrace_row hg hc) hs⟩
  show ∃ x : ℕ, x < 256 ∧ cellTrace _ _ o.full (DIG j) = (x : F)
  refine ⟨o.state (o.full + 1) j, Spec.sponge_lt _ _ _, ?_⟩
  rw [cellTrace_row hg (by simp only [DIG]; omega), row_dig _ hj]
  simp only [Str.cell, if_true]

end Verif.Stark.Sponge
