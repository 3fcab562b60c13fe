import Verif.Kasm.Copy

/-! Property C110: the kernel's operations on blocks of memory of any length. -/

namespace Verif.Kasm

variable {P : Prog} {w : World} {ret n d r : Nat} {s : List Nat}

/-! ### What a block operation has to do -/

/-- Nothing but memory has changed, and there only the `n` cells from `d` on. -/
def OnlyBlock (w w' : World) (d n : Nat) : Prop :=
  w'.ctx = w.ctx ∧ w'.inp = w.inp ∧ ∀ a, ¬ (d ≤ a ∧ a < d + n) → w'.mem a = w.mem a

/-- The `n` cells from `d` on now hold what the `n` cells from `r` on held before. -/
def Copied (w w' : World) (d r n : Nat) : Prop :=
  (∀ i < n, w'.mem (d + i) = w.mem (r + i)) ∧ OnlyBlock w w' d n

/-- The `n` cells from `d` on now hold zero. -/
def Cleared (w w' : World) (d n : Nat) : Prop :=
  (∀ i < n, w'.mem (d + i) = 0) ∧ OnlyBlock w w' d n

/-- The `n` cells from `d` on now hold the low `n` bytes of `v`, the highest first. -/
def Unpacked (w w' : World) (d v n : Nat) : Prop :=
  (∀ i < n, w'.mem (d + i) = v / 256 ^ (n - 1 - i) % 256) ∧ OnlyBlock w w' d n

/-- The cells are bytes. -/
def Bytes (w : World) (r n : Nat) : Prop := ∀ i < n, w.mem (r + i) < 256

theorem copied_copy (w : World) (d r n : Nat) : Copied w (w.copy d r n) d r n := by
  refine ⟨fun i hi => ?_, rfl, rfl, fun a ha => if_neg ha⟩
  simp only [World.copy]
  rw [if_pos ⟨by omega, by omega⟩, Nat.add_sub_cancel_left]

theorem cleared_clear (w : World) (d n : Nat) : Cleared w (w.clear d n) d n := by
  refine ⟨fun i hi => ?_, rfl, rfl, fun a ha => if_neg ha⟩
  simp only [World.clear]
  rw [if_pos ⟨by omega, by omega⟩]

theorem unpacked_store (w : World) (d v n : Nat) : Unpacked w (storeBytes w d v n) d v n := by
  refine ⟨fun i hi => ?_, storeBytes_ctx .., storeBytes_inp .., fun a ha => ?_⟩
  · rw [storeBytes_mem, if_pos ⟨by omega, by omega⟩, Nat.add_sub_cancel_left]; rfl
  · rw [storeBytes_mem, if_neg ha]

/-! ### C110 -/

/-- C110, `memcpy`: copies any number of cells, between blocks that do not meet and downwards. -/
theorem C110_cells (hP : P.Has copyCode) (hd : Span d n) (hr : Span r n) (ho : d ≤ r ∨ r + n ≤ d) :
    ∃ w', Reaches P (.goto (P.addr "memcpy") (d :: r :: n :: ret :: s) w) (.goto ret s w') ∧ Copied w w' d r n :=
  ⟨_, run_memcpy hP n d r w hd hr ho, copied_copy ..⟩

/-- C110, `memcpy_bytes`: the same for bytes, 32 at a time; up to 32 bytes the blocks may meet in any way. -/
theorem C110_bytes (hP : P.Copies) (hd : Span d n) (hr : Span r n) (ho : d ≤ r ∨ r + n ≤ d ∨ n ≤ 32)
    (hb : Bytes w r n) :
    ∃ w', Reaches P (.goto (P.addr "memcpy_bytes") (d :: r :: n :: ret :: s) w) (.goto ret s w') ∧
      Copied w w' d r n :=
  ⟨_, run_memcpy_bytes hP n d r w hd hr ho hb, copied_copy ..⟩

/-- C110, `memcpy_bytes_backwards`: bytes to a later place, which may meet the old one. It is given the
last 32 bytes of each block, or the blocks if they are shorter. -/
theorem C110_bytes_backwards (hP : P.Copies) (hd : Span d n) (hr : Span r n) (ho : r ≤ d) (hb : Bytes w r n) :
    ∃ w', Reaches P (.goto (P.addr "memcpy_bytes_backwards")
        ((d + (n - min 32 n)) :: (r + (n - min 32 n)) :: n :: ret :: s) w) (.goto ret s w') ∧
      Copied w w' d r n :=
  ⟨_, run_memcpy_back hP n d r w hd hr ho hb, copied_copy ..⟩

/-- C110, `memset`: clears any number of cells. -/
theorem C110_clear (hP : P.Copies) (hd : Span d n) :
    ∃ w', Reaches P (.goto (P.addr "memset") (d :: n :: ret :: s) w) (.goto ret s w') ∧ Cleared w w' d n :=
  ⟨_, run_memset hP n d w hd, cleared_clear ..⟩

/-- C110, `mstore_unpacking`: writes the low bytes of a word and returns the place after them. -/
theorem C110_unpack {v : Nat} (hP : P.Copies) (hn : n ≤ 32) (hd : Span d n) :
    ∃ w', Reaches P (.goto (P.addr "mstore_unpacking") (d :: v :: n :: ret :: s) w) (.goto ret ((d + n) :: s) w') ∧
      Unpacked w w' d v n := by
  by_cases h : n = 0
  · subst h
    refine ⟨w, ?_, fun i hi => absurd hi (by omega), rfl, rfl, fun a _ => rfl⟩
    enter hP.has in copyCode
    rw [b_mstore_unpacking]
    kexec [ne_eq, Nat.one_ne_zero, not_false_iff, if_true]
    enter hP.has in copyCode
    rw [b_mstore_unpacking_empty]
    kexec []
    exact .refl _
  · exact ⟨_, run_unpacking hP (by omega) hn hd, unpacked_store ..⟩

/-! ### A kernel with these operations -/

/-- Given code, and after it, at 100000, the table of `asm/memory/packing.asm:47-235`. -/
def tableProg (code : List (String × List I)) (hash : List Nat → Nat) : Prog where
  addr l := if l = "mstore_unpacking_0" then 100000 else (Prog.of code hash).addr l
  code d := if 100000 ≤ d then [MSTORE_32BYTES ((d - 100000) / 3), SWAP 1, JUMP] else (Prog.of code hash).code d
  hash := hash

theorem tableProg_has (code : List (String × List I)) (hash : List Nat → Nat)
    (hn : (code.map (·.1)).Nodup) (hl : code.length < 99999) (ht : "mstore_unpacking_0" ∉ code.map (·.1)) :
    (tableProg code hash).Has code := by
  intro p hp
  obtain ⟨h1, h2⟩ := Prog.of_has code hash hn (by omega) p hp
  have h3 : p.1 ≠ "mstore_unpacking_0" := fun h => ht (h ▸ List.mem_map_of_mem hp)
  have h4 : (Prog.of code hash).addr p.1 < 100000 := by
    have : code.findIdx (·.1 == p.1) < code.length := List.findIdx_lt_length_of_exists ⟨p, hp, by simp⟩
    simp only [Prog.of]; omega
  simp only [tableProg, if_neg h3]
  rw [if_neg (by omega)]
  exact ⟨h1, h2⟩

theorem tableProg_copies (code : List (String × List I)) (hash : List Nat → Nat)
    (hn : (code.map (·.1)).Nodup) (hl : code.length < 99999) (ht : "mstore_unpacking_0" ∉ code.map (·.1))
    (hc : ∀ p ∈ copyCode, p ∈ code) : (tableProg code hash).Copies where
  has := (tableProg_has code hash hn hl ht).mono hc
  table n h1 h2 := by
    simp only [tableProg, if_true]
    rw [if_pos (by omega), show (100000 + 3 * n - 100000) / 3 = n by omega]
  addr := by simp only [tableProg, if_true]; omega

def copyProg : Prog := tableProg copyCode fun _ => 0

theorem copyProg_copies : copyProg.Copies :=
  tableProg_copies _ _ (by decide +kernel) (by decide +kernel) (by decide +kernel) fun _ h => h

/-- Memory of context 1 that holds the bytes 0, 1, 2, … one after another. -/
def rampWorld : World where
  ctx := 1
  inp := fun _ => 0
  mem := fun a => a % 2 ^ 32 % 256

/-- A block of 100 bytes moved up by 10: the last byte is the 99th of before, the 5th has not changed. -/
example : ∃ w', Reaches copyProg (.goto (copyProg.addr "memcpy_bytes_backwards")
      [2 ^ 64 + 2 ^ 32 + 78, 2 ^ 64 + 2 ^ 32 + 68, 100, 77] rampWorld) (.goto 77 [] w') ∧
    w'.mem (2 ^ 64 + 2 ^ 32 + 109) = 99 ∧ w'.mem (2 ^ 64 + 2 ^ 32 + 10) = 0 ∧ w'.mem (2 ^ 64 + 2 ^ 32 + 5) = 5 := by
  obtain ⟨w', h1, h2, -, -, h3⟩ := C110_bytes_backwards (w := rampWorld) (d := 2 ^ 64 + 2 ^ 32 + 10) (r := 2 ^ 64 + 2 ^ 32)
    (n := 100) (ret := 77) (s := []) copyProg_copies ⟨by decide, by decide, by decide⟩
    ⟨by decide, by decide, by decide⟩ (by decide)
    (fun i _ => Nat.mod_lt _ (by omega))
  refine ⟨w', h1, ?_, ?_, ?_⟩
  · exact (h2 99 (by omega)).trans (by decide)
  · exact (h2 0 (by omega)).trans (by decide)
  · exact (h3 _ (by omega)).trans (by decide)

/-- 70 cells cleared, the 71st not. -/
example : ∃ w', Reaches copyProg (.goto (copyProg.addr "memset") [2 ^ 64 + 2 ^ 32 + 1, 70, 77] rampWorld)
      (.goto 77 [] w') ∧ w'.mem (2 ^ 64 + 2 ^ 32 + 70) = 0 ∧ w'.mem (2 ^ 64 + 2 ^ 32 + 71) = 71 := by
  obtain ⟨w', h1, h2, -, -, h3⟩ := C110_clear (w := rampWorld) (d := 2 ^ 64 + 2 ^ 32 + 1) (n := 70) (ret := 77) (s := [])
    copyProg_copies ⟨by decide, by decide, by decide⟩
  exact ⟨w', h1, (h2 69 (by omega)), (h3 _ (by omega)).trans (by decide)⟩

/-- 40 bytes copied to the place just above them with a number of bytes that is not a multiple of 32. -/
example : ∃ w', Reaches copyProg (.goto (copyProg.addr "memcpy_bytes")
      [2 ^ 64 + 2 ^ 32 + 40, 2 ^ 64 + 2 ^ 32, 40, 77] rampWorld) (.goto 77 [] w') ∧
    w'.mem (2 ^ 64 + 2 ^ 32 + 79) = 39 := by
  obtain ⟨w', h1, h2, -⟩ := C110_bytes (w := rampWorld) (d := 2 ^ 64 + 2 ^ 32 + 40) (r := 2 ^ 64 + 2 ^ 32)
    (n := 40) (ret := 77) (s := []) copyProg_copies ⟨by decide, by decide, by decide⟩
    ⟨by decide, by decide, by decide⟩ (by decide)
    (fun i _ => Nat.mod_lt _ (by omega))
  exact ⟨w', h1, (h2 39 (by omega)).trans (by decide)⟩

/-- Three bytes of a word. -/
example : ∃ w', Reaches copyProg (.goto (copyProg.addr "mstore_unpacking")
      [2 ^ 64 + 2 ^ 32, 0x12345678, 3, 77] rampWorld) (.goto 77 [2 ^ 64 + 2 ^ 32 + 3] w') ∧
    w'.mem (2 ^ 64 + 2 ^ 32) = 0x34 ∧ w'.mem (2 ^ 64 + 2 ^ 32 + 2) = 0x78 := by
  obtain ⟨w', h1, h2, -⟩ := C110_unpack (w := rampWorld) (d := 2 ^ 64 + 2 ^ 32) (v := 0x12345678) (n := 3) (ret := 77)
    (s := []) copyProg_copies (by decide) ⟨by decide, by decide, by decide⟩
  exact ⟨w', h1, (h2 0 (by omega)).trans (by decide), (h2 2 (by omega)).trans (by decide)⟩

/-- Cells, not only bytes: `memcpy` moves three cells down by one. -/
example : ∃ w', Reaches copyProg (.goto (copyProg.addr "memcpy") [2 ^ 64 + 2 ^ 32, 2 ^ 64 + 2 ^ 32 + 1, 3, 77] rampWorld)
      (.goto 77 [] w') ∧ w'.mem (2 ^ 64 + 2 ^ 32 + 2) = 3 := by
  obtain ⟨w', h1, h2, -⟩ := C110_cells (w := rampWorld) (d := 2 ^ 64 + 2 ^ 32) (r := 2 ^ 64 + 2 ^ 32 + 1)
    (n := 3) (ret := 77) (s := []) copyProg_copies.has ⟨by decide, by decide, by decide⟩
    ⟨by decide, by decide, by decide⟩ (by decide)
  exact ⟨w', h1, (h2 2 (by omega)).trans (by decide)⟩

end Verif.Kasm
