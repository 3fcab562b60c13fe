import Verif.Stark.Sponge.Cells

/-! The rows of a string to be hashed. Nothing here models code. -/

namespace Verif.Stark.Sponge

open Finset Arith

/-- A string with its address and time. -/
structure Str where
  ctx : F
  seg : F
  virt : F
  ts : F
  m : List ℕ

/-- The number of full blocks. -/
abbrev Str.full (o : Str) : ℕ := o.m.length / 136

/-- The `k`-th row of a string, with the given states before and after the block and the given cells of the digest. -/
def Str.cell (o : Str) (st out : ℕ → ℕ → ℕ) (dig : ℕ → ℕ → F) (k : ℕ) : Cell where
  full := decide (k < o.full)
  ctx := o.ctx
  seg := o.seg
  virt := o.virt
  ts := o.ts
  abs := 136 * k
  pad := if k < o.full then 136 else o.m.length % 136
  st := st k
  blk := Spec.blockOf (Spec.pad o.m) k
  out := out k
  dig := dig k

/-- The rows of a string. -/
def Str.cells (o : Str) (st out : ℕ → ℕ → ℕ) (dig : ℕ → ℕ → F) : List Cell := (List.range (o.full + 1)).map (o.cell st out dig)

/-- Four cells make up a word. -/
def DigestOk (dig : ℕ → F) (out : ℕ → ℕ) : Prop :=
  ∀ k < 8, dig (4 * k) + dig (4 * k + 1) * 256 + dig (4 * k + 2) * 65536 + dig (4 * k + 3) * 16777216 = (le32 out k : F)

theorem digestOk_bytes (out : ℕ → ℕ) : DigestOk (fun j => (out j : F)) out := by
  intro k _
  unfold le32
  push_cast
  rfl

section
variable {o : Str} {st out : ℕ → ℕ → ℕ} {dig : ℕ → ℕ → F}

theorem pad_lt {m : List ℕ} (h : ∀ b ∈ m, b < 256) : ∀ b ∈ Spec.pad m, b < 256 := by
  intro b hb
  unfold Spec.pad at hb
  split at hb
  · simp only [List.mem_append, List.mem_singleton] at hb
    rcases hb with hb | hb
    · exact h b hb
    · omega
  · simp only [List.mem_append, List.mem_singleton, List.mem_replicate] at hb
    rcases hb with ((hb | hb) | hb) | hb
    · exact h b hb
    all_goals omega

theorem blockOf_lt {m : List ℕ} (h : ∀ b ∈ m, b < 256) (k i : ℕ) : Spec.blockOf m k i < 256 := by
  unfold Spec.blockOf
  rw [List.getD_eq_getElem?_getD]
  rcases e : m[136 * k + i]? with _ | b
  · decide
  · exact h b (List.mem_of_getElem? e)

theorem Str.cell_ok (hm : ∀ b ∈ o.m, b < 256) {k : ℕ} (hst : ∀ i < 200, st k i < 256) (hout : ∀ i < 200, out k i < 256) (hd : DigestOk (dig k) (out k)) :
    (o.cell st out dig k).Ok where
  pad := by
    by_cases h : k < o.full
    · simp only [Str.cell, h, decide_true, if_true]
    · simp only [Str.cell, h, decide_false, if_false, Bool.false_eq_true]; omega
  st := hst
  blk i _ := blockOf_lt (pad_lt hm) k i
  out := hout
  dig := hd

theorem Str.cell_padded {k : ℕ} (hk : k ≤ o.full) : (o.cell st out dig k).Padded := by
  intro hf x h1 h2
  have hk' : ¬ k < o.full := by simpa [Str.cell] using hf
  have e : k = o.full := by omega
  simp only [Str.cell, if_neg hk'] at h1 ⊢
  rw [Spec.blockOf, e, Str.full, pad_getD_ge h1 h2]

theorem Str.cell_next {k : ℕ} (hk : k < o.full) (h : ∀ i < 200, st (k + 1) i = out k i) : (o.cell st out dig k).Next (o.cell st out dig (k + 1)) := by
  unfold Cell.Next
  rw [if_pos (show (o.cell st out dig k).full = true by simp [Str.cell, hk])]
  exact ⟨rfl, rfl, rfl, rfl, by show 136 * (k + 1) = 136 * k + 136; ring, h⟩

theorem Str.cells_getElem? (i : ℕ) : (o.cells st out dig)[i]? = if i < o.full + 1 then some (o.cell st out dig i) else none := by
  unfold Str.cells
  rw [List.getElem?_map]
  split
  · rw [List.getElem?_range (by assumption)]; rfl
  · rw [List.getElem?_eq_none_iff.2 (by rw [List.length_range]; omega)]; rfl

theorem Str.cells_length : (o.cells st out dig).length = o.full + 1 := by simp [Str.cells]

theorem Str.cells_ne_nil : o.cells st out dig ≠ [] := by
  intro h
  have := Str.cells_length (o := o) (st := st) (out := out) (dig := dig)
  rw [h] at this
  exact absurd this (by simp)

end

/-- Rows that may stand at the beginning of a table or after a final block, and end with a final block. -/
structure Chained (cells : List Cell) : Prop where
  ok : ∀ e ∈ cells, e.Ok
  padded : ∀ e ∈ cells, e.Padded
  first : ∀ e, cells[0]? = some e → e.abs = 0 ∧ ∀ i < 200, e.st i = 0
  next : ∀ i e f, cells[i]? = some e → cells[i + 1]? = some f → e.Next f
  last : ∀ e, cells.getLast? = some e → e.full = false

theorem Chained.nil : Chained [] := ⟨by simp, by simp, by simp, by simp, by simp⟩

/-- Rows one after the other, the last of which need not be padded correctly. -/
theorem next_append {a b : List Cell} (ha : ∀ i e f, a[i]? = some e → a[i + 1]? = some f → e.Next f) (hb : ∀ i e f, b[i]? = some e → b[i + 1]? = some f → e.Next f)
    (hl : ∀ e, a.getLast? = some e → e.full = false) (hf : ∀ e, b[0]? = some e → e.abs = 0 ∧ ∀ i < 200, e.st i = 0) :
    ∀ i e f, (a ++ b)[i]? = some e → (a ++ b)[i + 1]? = some f → e.Next f := by
  intro i e f he hf'
  by_cases h1 : i + 1 < a.length
  · rw [List.getElem?_append_left (by omega)] at he
    rw [List.getElem?_append_left h1] at hf'
    exact ha i e f he hf'
  · by_cases h2 : i < a.length
    · rw [List.getElem?_append_left h2] at he
      rw [List.getElem?_append_right (by omega), show i + 1 - a.length = 0 by omega] at hf'
      have := hl e (by rw [List.getLast?_eq_getElem?, show a.length - 1 = i by omega]; exact he)
      unfold Cell.Next
      rw [this, if_neg (by decide)]
      exact hf f hf'
    · rw [List.getElem?_append_right (by omega)] at he
      rw [List.getElem?_append_right (by omega), show i + 1 - a.length = i - a.length + 1 by omega] at hf'
      exact hb _ e f he hf'

theorem Chained.append {a b : List Cell} (ha : Chained a) (hb : Chained b) : Chained (a ++ b) where
  ok e he := (List.mem_append.1 he).elim (ha.ok e) (hb.ok e)
  padded e he := (List.mem_append.1 he).elim (ha.padded e) (hb.padded e)
  first e he := by
    rcases a with _ | ⟨x, a⟩
    · exact hb.first e he
    · exact ha.first e he
  next := next_append ha.next hb.next ha.last hb.first
  last e he := by
    rw [List.getLast?_append] at he
    rcases h : b.getLast? with _ | f
    · rw [h] at he; exact ha.last e he
    · rw [h] at he
      obtain rfl : f = e := by simpa using he
      exact hb.last f h

theorem Chained.flatten : ∀ {l : List (List Cell)}, (∀ a ∈ l, Chained a) → Chained l.flatten
  | [], _ => .nil
  | a :: l, h => by
    rw [List.flatten_cons]
    exact (h a List.mem_cons_self).append (Chained.flatten (fun b hb => h b (List.mem_cons_of_mem _ hb)))

theorem Chained.chain {cells : List Cell} (h : Chained cells) {n : ℕ} (hn : cells.length ≤ n) : Chain n cells where
  ok := h.ok
  len := hn
  padded _ e he _ := h.padded e (List.mem_of_getElem? he)
  first := h.first
  next := h.next
  last e he _ := h.last e he

theorem Str.chained {o : Str} {st out : ℕ → ℕ → ℕ} {dig : ℕ → ℕ → F} (hm : ∀ b ∈ o.m, b < 256) (h0 : ∀ i < 200, st 0 i = 0)
    (hst : ∀ k < o.full, ∀ i < 200, st (k + 1) i = out k i) (hout : ∀ k, ∀ i < 200, out k i < 256) (hd : ∀ k ≤ o.full, DigestOk (dig k) (out k)) :
    Chained (o.cells st out dig) where
  ok e he := by
    obtain ⟨k, hk, rfl⟩ := List.mem_map.1 he
    have hk := List.mem_range.1 hk
    refine Str.cell_ok hm (fun i hi => ?_) (hout k) (hd k (by omega))
    cases k with
    | zero => rw [h0 i hi]; decide
    | succ k => rw [hst k (by omega) i hi]; exact hout k i hi
  padded e he := by
    obtain ⟨k, hk, rfl⟩ := List.mem_map.1 he
    exact Str.cell_padded (by have := List.mem_range.1 hk; omega)
  first e he := by
    rw [Str.cells_getElem?, if_pos (by omega)] at he
    obtain rfl := Option.some.inj he
    exact ⟨rfl, h0⟩
  next i e f he hf := by
    rw [Str.cells_getElem?] at he hf
    by_cases h : i + 1 < o.full + 1
    · rw [if_pos (by omega)] at he
      rw [if_pos h] at hf
      obtain rfl := Option.some.inj he
      obtain rfl := Option.some.inj hf
      exact Str.cell_next (by omega) (hst i (by omega))
    · rw [if_neg h] at hf; exact nomatch hf
  last e he := by
    rw [List.getLast?_eq_getElem?, Str.cells_length, Nat.add_sub_cancel, Str.cells_getElem?, if_pos (by omega)] at he
    obtain rfl := Option.some.inj he
    simp [Str.cell]

/-! ### The honest rows -/

/-- The state before the `k`-th block. -/
def Str.state (o : Str) : ℕ → ℕ → ℕ := Spec.sponge (Spec.blockOf (Spec.pad o.m))

/-- The honest rows, with the cells `d` of the digest in the final row. -/
def Str.honest (o : Str) (d : ℕ → F) : List Cell :=
  o.cells o.state (fun k => o.state (k + 1)) (fun k => if k = o.full then d else fun j => (o.state (k + 1) j : F))

theorem Str.honest_chained {o : Str} {d : ℕ → F} (hm : ∀ b ∈ o.m, b < 256) (hd : DigestOk d (o.state (o.full + 1))) : Chained (o.honest d) :=
  Str.chained hm (fun _ _ => rfl) (fun _ _ _ _ => rfl) (fun _ _ _ => Spec.sponge_lt _ _ _) (fun k _ => by
    by_cases h : k = o.full
    · rw [if_pos h, h]; exact hd
    · rw [if_neg h]; exact digestOk_bytes _)

/-- The permutations of the honest rows. -/
def Cell.perm (e : Cell) : Keccak.Spec.State × F := (Spec.ofBytes (Spec.xorBlock e.st e.blk), e.ts)

/-- The state after the block is the permutation of the state with the block added to it. -/
def Cell.Permuted (e : Cell) : Prop := ∀ i < 200, e.out i = Spec.permute (Spec.xorBlock e.st e.blk) i

theorem Str.honest_permuted {o : Str} {d : ℕ → F} : ∀ e ∈ o.honest d, e.Permuted := by
  intro e he i hi
  obtain ⟨k, hk, rfl⟩ := List.mem_map.1 he
  rfl

theorem stateWords_bytes {s t : ℕ → ℕ} (h : ∀ i < 200, s i = t i) : stateWords (Spec.ofBytes s) = stateWords (Spec.ofBytes t) :=
  stateWords_congr (fun x _ y _ z _ => by unfold Spec.ofBytes; rw [h _ (by omega)])

/-- A table of honest rows is accepted. -/
theorem Chain.accepted_of_permuted {n : ℕ} {cells : List Cell} (h : Chain n cells) (hn : 256 ≤ n) {ops : List (Logic.Op × ℕ × ℕ)} (m : ℕ)
    (hops : ∀ e ∈ cells, ∀ o ∈ logicOps e.st e.blk, o ∈ ops) (hp : ∀ e ∈ cells, e.Permuted) :
    Accepted n (cellTrace n cells) (Logic.traceHeight ops m) (Logic.traceRow ops) (cells.map Cell.perm) := by
  refine h.accepted hn m hops ?_ ?_
  · rw [List.map_map]; exact .refl _
  · rw [List.map_map]
    refine List.Perm.of_eq (List.map_congr_left (fun e he => ?_))
    exact congrArg (·, e.ts) ((stateWords_bytes (hp e he)).trans (stateWords_permute _))

/-! ### What the rows show -/

section
variable {n : ℕ} {cells : List Cell}

theorem shows_of_cell {i : ℕ} {e : Cell} (h : cells[i]? = some e) (hn : i < n) {x : Hash} (hx : Shows e.row x) : Exports n (cellTrace n cells) x :=
  ⟨i, hn, Shows.congr (fun _ hc => cellTrace_row h hc) hx⟩

/-- The rows of the blocks and only these access memory. -/
theorem accesses_iff (hl : cells.length ≤ n) {a : BytePacking.Access} :
    Accesses n (cellTrace n cells) a ↔ ∃ e ∈ cells, ∃ j < 136, memFilter e.row j = 1 ∧ memAccess e.row j = a := by
  have hf : ∀ {lv lv' : Row F}, (∀ c < 436, lv c = lv' c) → ∀ j < 136, memFilter lv j = memFilter lv' j ∧ memAccess lv j = memAccess lv' j := by
    intro lv lv' h j hj
    unfold memFilter memAccess
    rw [h FULL (by decide), h (PAD 135) (by decide), h (PAD j) (by simp only [PAD]; omega), h CTX (by decide), h SEG (by decide), h VIRT (by decide),
      h ABS (by decide), h TS (by decide), h (BLOCK j) (by simp only [BLOCK]; omega)]
    exact ⟨rfl, rfl⟩
  constructor
  · rintro ⟨i, hi, j, hj, h1, h2⟩
    rcases he : cells[i]? with _ | e
    · have := (hf (fun c hc => (cellTrace_of hc).trans (by rw [cellRow_none he])) j hj (lv := cellTrace n cells i) (lv' := fun _ => 0)).1
      rw [this] at h1
      unfold memFilter at h1
      split at h1
      · exact absurd h1 zero_ne_one
      · rw [add_zero, sub_zero] at h1; exact absurd h1 zero_ne_one
    · obtain ⟨e1, e2⟩ := hf (fun c hc => cellTrace_row (n := n) he hc) j hj
      exact ⟨e, List.mem_of_getElem? he, j, hj, e1 ▸ h1, e2 ▸ h2⟩
  · rintro ⟨e, he, j, hj, h1, h2⟩
    obtain ⟨i, hi, rfl⟩ := List.mem_iff_getElem.1 he
    obtain ⟨e1, e2⟩ := hf (fun c hc => cellTrace_row (n := n) (List.getElem?_eq_getElem hi) hc) j hj
    exact ⟨i, by omega, j, hj, e1.trans h1, e2.trans h2⟩

theorem Cell.Ok.memFilter {e : Cell} (h : e.Ok) {j : ℕ} (hj : j < 136) : memFilter e.row j = if j < e.pad then 1 else 0 := by
  have hp := h.pad
  unfold Sponge.memFilter
  rw [h.final, row_full, row_pad e hj]
  cases hf : e.full
  · rw [hf, if_neg (by decide)] at hp
    simp only [Bool.false_eq_true, if_false]
    by_cases h1 : j = 135
    · rw [if_pos h1, if_neg (by omega)]
    · rw [if_neg h1]
      by_cases h2 : j < e.pad
      · rw [if_neg (by omega), if_pos h2]; ring
      · rw [if_pos (by omega), if_neg h2]; ring
  · rw [hf, if_pos rfl] at hp
    simp only [if_true]
    rw [if_pos (show j < e.pad by omega)]
    split
    · rfl
    · rw [if_neg (by omega)]; ring

/-- A string's rows access its bytes and nothing else. -/
theorem Str.accesses {o : Str} {st out : ℕ → ℕ → ℕ} {dig : ℕ → ℕ → F} (hok : ∀ e ∈ o.cells st out dig, e.Ok) {a : BytePacking.Access} :
    (∃ e ∈ o.cells st out dig, ∃ j < 136, Sponge.memFilter e.row j = 1 ∧ memAccess e.row j = a) ↔
      ∃ i, ∃ h : i < o.m.length, a = ⟨1, o.ctx, o.seg, o.virt + (i : F), (o.m[i] : F), o.ts⟩ := by
  have hacc : ∀ k j, j < 136 → memAccess (o.cell st out dig k).row j =
      ⟨1, o.ctx, o.seg, o.virt + ((136 * k + j : ℕ) : F), ((Spec.blockOf (Spec.pad o.m) k j : ℕ) : F), o.ts⟩ := by
    intro k j hj
    unfold memAccess
    rw [row_ctx, row_seg, row_virt, row_abs, row_block _ hj, row_ts]
    simp only [Str.cell, Nat.cast_add, add_assoc]
  have hpad : ∀ k, (o.cell st out dig k).pad = if k < o.full then 136 else o.m.length % 136 := fun _ => rfl
  constructor
  · rintro ⟨e, he, j, hj, h1, h2⟩
    rw [(hok e he).memFilter hj] at h1
    obtain ⟨k, hk, rfl⟩ := List.mem_map.1 he
    have hk := List.mem_range.1 hk
    rw [hacc k j hj] at h2
    have hlt : j < (o.cell st out dig k).pad := by
      by_contra hc
      rw [if_neg hc] at h1
      exact absurd h1 zero_ne_one
    rw [hpad k] at hlt
    have hi : 136 * k + j < o.m.length := by
      unfold Str.full at hk hlt
      split at hlt <;> omega
    refine ⟨136 * k + j, hi, ?_⟩
    rw [← h2, Spec.blockOf, pad_getD_lt hi, List.getD_eq_getElem _ _ hi]
  · rintro ⟨i, hi, rfl⟩
    have hk : i / 136 < o.full + 1 := by unfold Str.full; omega
    have he : o.cell st out dig (i / 136) ∈ o.cells st out dig := List.mem_map.2 ⟨_, List.mem_range.2 hk, rfl⟩
    refine ⟨_, he, i % 136, by omega, ?_, ?_⟩
    · rw [(hok _ he).memFilter (by omega), hpad _, if_pos]
      unfold Str.full
      split <;> omega
    · rw [hacc _ _ (by omega), Spec.blockOf, show 136 * (i / 136) + i % 136 = i by omega, pad_getD_lt hi, List.getD_eq_getElem _ _ hi]

/-- What the last row of a string shows. -/
theorem Str.shows {o : Str} {st out : ℕ → ℕ → ℕ} {dig : ℕ → ℕ → F} (hok : ∀ e ∈ o.cells st out dig, e.Ok) {w : ℕ → F}
    (hw : ∀ k < 8, be4 (o.cell st out dig o.full).row (DIG (4 * (7 - k))) = w k) :
    Shows (o.cell st out dig o.full).row ⟨o.ctx, o.seg, o.virt, (o.m.length : F), o.ts, w⟩ := by
  have he : o.cell st out dig o.full ∈ o.cells st out dig := List.mem_map.2 ⟨_, List.mem_range.2 (by omega), rfl⟩
  obtain ⟨h1, h2, h3, h4, h5, h6, -⟩ := (hok _ he).shows (by simp [Str.cell])
  refine ⟨h1, h2, h3, h4, h5.trans ?_, h6, hw⟩
  refine congrArg (Nat.cast (R := F)) ?_
  simp only [Str.cell, if_neg (lt_irrefl o.full)]
  unfold Str.full
  omega

/-- The digest of a row whose cells hold bytes. -/
theorem Cell.be4_bytes {e : Cell} {d : ℕ → ℕ} (hd : ∀ j < 32, e.dig j = (d j : F)) (hb : ∀ j < 32, d j < 256) {k : ℕ} (hk : k < 8) :
    be4 e.row (DIG (4 * (7 - k))) = word (BytePacking.beNat ((List.range 32).map d)) k :=
  digest_word (fun j hj => (row_dig e hj).trans (hd j hj)) hb hk

end

end Verif.Stark.Sponge
