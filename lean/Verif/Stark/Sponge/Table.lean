import Verif.Stark.Sponge.Spec
import Verif.Stark.Keccak.Claims
import Verif.Stark.BytePacking.Gen
import Mathlib.Data.List.Perm.Basic

/-! The Keccak sponge table: the blocks of the strings the CPU hashes. `evm_arithmetization/src/keccak_sponge/keccak_sponge_stark.rs`,
`columns.rs`. Properties C89 and C90. -/

namespace Verif.Stark.Sponge

open Finset Arith

/-! ### Columns (`keccak_sponge/columns.rs:32-93`) -/

/-- `is_full_input_block`. `columns.rs:35`. -/
abbrev FULL : ℕ := 0
/-- `context`. `columns.rs:38`. -/
abbrev CTX : ℕ := 1
/-- `segment`. `columns.rs:40`. -/
abbrev SEG : ℕ := 2
/-- `virt`. `columns.rs:42`. -/
abbrev VIRT : ℕ := 3
/-- `timestamp`. `columns.rs:45`. -/
abbrev TS : ℕ := 4
/-- `already_absorbed_bytes`. `columns.rs:49`. -/
abbrev ABS : ℕ := 5
/-- `is_padding_byte[i]`. `columns.rs:58`. -/
abbrev PAD (i : ℕ) : ℕ := 6 + i
/-- `original_rate_u32s[i]`. `columns.rs:61`. -/
abbrev RATE (i : ℕ) : ℕ := 142 + i
/-- `original_capacity_u32s[i]`. `columns.rs:65`. -/
abbrev CAP (i : ℕ) : ℕ := 176 + i
/-- `block_bytes[i]`. `columns.rs:69`. -/
abbrev BLOCK (i : ℕ) : ℕ := 192 + i
/-- `xored_rate_u32s[i]`. `columns.rs:73`. -/
abbrev XOR (i : ℕ) : ℕ := 328 + i
/-- `partial_updated_state_u32s[i]`. `columns.rs:80`. -/
abbrev PART (i : ℕ) : ℕ := 362 + i
/-- `updated_digest_state_bytes[i]`. `columns.rs:85`. -/
abbrev DIG (i : ℕ) : ℕ := 404 + i
/-- `range_counter`. `columns.rs:89`. -/
abbrev COUNTER : ℕ := 436
/-- `rc_frequencies`. `columns.rs:91`. -/
abbrev FREQ : ℕ := 437

variable {R : Type} [CommRing R]

/-! ### Constraints -/

/-- Four cells as the bytes of a number, least significant first. `keccak_sponge_stark.rs:88-95, 632-636`; `Column::le_bytes`. -/
def le4 (lv : Row R) (c : ℕ) : R := lv c + lv (c + 1) * 256 + lv (c + 2) * 65536 + lv (c + 3) * 16777216

/-- `is_first_padding_byte`. `keccak_sponge_stark.rs:677-683`. -/
def firstPad (lv : Row R) (i : ℕ) : R := if 0 < i then lv (PAD i) - lv (PAD (i - 1)) else lv (PAD i)

/-- `has_single_padding_byte`. `keccak_sponge_stark.rs:665-666`. -/
def single (lv : Row R) : R := lv (PAD 135) - lv (PAD 134)

/-- `KeccakSpongeStark::eval_packed_generic`. `keccak_sponge_stark.rs:546-715`. The circuit version `eval_ext_circuit` is not modelled. -/
def evalSponge (lv nv : Row R) : List (Constr R) :=
  let incr := nv COUNTER - lv COUNTER
  let final := lv (PAD 135)
  [⟨.first, lv COUNTER⟩, ⟨.transition, incr * incr - incr⟩, ⟨.last, lv COUNTER - 255⟩] ++
  [⟨.always, lv FULL * (lv FULL - 1)⟩] ++
  (List.range 136).map (fun i => ⟨.always, lv (PAD i) * (lv (PAD i) - 1)⟩) ++
  (List.range 135).map (fun i => ⟨.always, lv (PAD i) * (lv (PAD (i + 1)) - 1)⟩) ++
  [⟨.always, final * lv FULL⟩] ++
  [⟨.first, lv ABS⟩] ++ (List.range 34).map (fun k => ⟨.first, lv (RATE k)⟩) ++ (List.range 16).map (fun k => ⟨.first, lv (CAP k)⟩) ++
  [⟨.transition, final * nv ABS⟩] ++ (List.range 34).map (fun k => ⟨.transition, final * nv (RATE k)⟩) ++
  (List.range 16).map (fun k => ⟨.transition, final * nv (CAP k)⟩) ++
  [⟨.transition, lv FULL * (lv CTX - nv CTX)⟩, ⟨.transition, lv FULL * (lv SEG - nv SEG)⟩, ⟨.transition, lv FULL * (lv VIRT - nv VIRT)⟩,
   ⟨.transition, lv FULL * (lv TS - nv TS)⟩] ++
  (List.range 8).map (fun k => ⟨.transition, lv FULL * (nv (RATE k) - le4 lv (DIG (4 * k)))⟩) ++
  (List.range 26).map (fun k => ⟨.transition, lv FULL * (nv (RATE (8 + k)) - lv (PART k))⟩) ++
  (List.range 16).map (fun k => ⟨.transition, lv FULL * (nv (CAP k) - lv (PART (26 + k)))⟩) ++
  [⟨.transition, lv FULL * (lv ABS + 136 - nv ABS)⟩] ++
  [⟨.transition, single lv * (lv (BLOCK 135) - 0x81)⟩] ++
  (List.range 135).map (fun i => ⟨.transition, firstPad lv i * (lv (BLOCK i) - 1)⟩) ++
  (List.range 135).map (fun i => ⟨.transition, lv (PAD i) * (firstPad lv i - 1) * lv (BLOCK i)⟩) ++
  [⟨.transition, final * (single lv - 1) * (lv (BLOCK 135) - 0x80)⟩] ++
  [⟨.transition, (1 - lv FULL - final) * (nv FULL + nv (PAD 135))⟩]

/-- The lookups: the bytes of the block, and only these, in the counter. `lookups`, `keccak_sponge_stark.rs:946-953`. -/
def looking (T : ℕ → Row F) : List Looking := (List.range 136).map (fun j => ⟨fun i => T i (BLOCK j), fun _ => 1⟩)

/-! ### What the table shows to other tables -/

/-- A string to be hashed as the CPU looks it up: address, length, time and the eight words of the digest, least significant first. -/
structure Hash where
  ctx : F
  seg : F
  virt : F
  len : F
  ts : F
  word : ℕ → F

/-- The length the CPU sees. `ctl_looked_data`, `keccak_sponge_stark.rs:48-54`. -/
def lenCol (lv : Row F) : F := lv ABS + ((List.range 136).map (fun i => -lv (PAD i))).sum + 136

/-- Four cells as the bytes of a number, most significant first. `ctl_looked_data`, `keccak_sponge_stark.rs:38-43`. -/
def be4 (lv : Row F) (c : ℕ) : F := lv c * 16777216 + lv (c + 1) * 65536 + lv (c + 2) * 256 + lv (c + 3)

/-- A row shows the CPU a hash. `ctl_looked_data`, `ctl_looked_filter`, `keccak_sponge_stark.rs:34-62, 188-194`: the words are pushed in the order
of decreasing position. -/
def Shows (lv : Row F) (h : Hash) : Prop :=
  lv (PAD 135) = 1 ∧ lv CTX = h.ctx ∧ lv SEG = h.seg ∧ lv VIRT = h.virt ∧ lenCol lv = h.len ∧ lv TS = h.ts ∧
    ∀ k < 8, be4 lv (DIG (4 * (7 - k))) = h.word k

/-- The filter of the lookups in the Keccak and logic tables. `keccak_sponge_stark.rs:218-232`. -/
def active (lv : Row F) : F := lv FULL + lv (PAD 135)

/-- `ctl_looking_keccak_inputs`. `keccak_sponge_stark.rs:67-80`. -/
def keccakIn (lv : Row F) : List F × F := ((List.range 34).map (fun k => lv (XOR k)) ++ (List.range 16).map (fun k => lv (CAP k)), lv TS)

/-- `ctl_looking_keccak_outputs`. `keccak_sponge_stark.rs:85-104`. -/
def keccakOut (lv : Row F) : List F × F := ((List.range 8).map (fun k => le4 lv (DIG (4 * k))) ++ (List.range 42).map (fun k => lv (PART k)), lv TS)

/-- `ctl_looking_memory(i)`: a read of one byte. `keccak_sponge_stark.rs:108-138`. -/
def memAccess (lv : Row F) (i : ℕ) : BytePacking.Access := ⟨1, lv CTX, lv SEG, lv VIRT + lv ABS + (i : F), lv (BLOCK i), lv TS⟩

/-- `ctl_looking_memory_filter(i)`. `keccak_sponge_stark.rs:199-215`. -/
def memFilter (lv : Row F) (i : ℕ) : F := if i = 135 then lv FULL else lv FULL + lv (PAD 135) - lv (PAD i)

/-- The table exports a hash to the CPU. -/
def Exports (n : ℕ) (T : ℕ → Row F) (h : Hash) : Prop := ∃ i < n, Shows (T i) h

/-- The table accesses memory. -/
def Accesses (n : ℕ) (T : ℕ → Row F) (a : BytePacking.Access) : Prop := ∃ i < n, ∃ j < 136, memFilter (T i) j = 1 ∧ memAccess (T i) j = a

/-- The words of the first operand of the `c`-th XOR: part of the state. `ctl_looking_logic`, `keccak_sponge_stark.rs:164-168`. -/
def logicState (lv : Row F) (c k : ℕ) : F := if 8 * c + k < 34 then lv (RATE (8 * c + k)) else 0

/-- The words of the second operand: part of the block. `ctl_looking_logic`, `keccak_sponge_stark.rs:172-178`. -/
def logicBlock (lv : Row F) (c k : ℕ) : F := if 8 * c + k < 34 then le4 lv (BLOCK (32 * c + 4 * k)) else 0

/-- The words of the result. `ctl_looking_logic`, `keccak_sponge_stark.rs:181-185`. -/
def logicOut (lv : Row F) (c k : ℕ) : F := if 8 * c + k < 34 then lv (XOR (8 * c + k)) else 0

/-- The words of a number. -/
def word (a k : ℕ) : F := ((a / 2 ^ (32 * k) % 2 ^ 32 : ℕ) : F)

/-- A row's five lookups in the logic table. `ctl_looking_logic`, `keccak_sponge_stark.rs:147-185`. -/
def LooksUpLogic (nL : ℕ) (L : ℕ → Row F) (lv : Row F) : Prop :=
  ∀ c < 5, ∃ a b out, Logic.Exports nL L 0x18 a b out ∧ ∀ k < 8, logicState lv c k = word a k ∧ logicBlock lv c k = word b k ∧ logicOut lv c k = word out k

/-- The rows that are not padding. -/
def activeRows (n : ℕ) (T : ℕ → Row F) : List ℕ := (List.range n).filter (fun i => decide (active (T i) = 1))

/-- The fifty words of a state as they are looked up in the Keccak table. -/
def stateWords (A : Keccak.Spec.State) : List F := (List.range 50).map (Keccak.limbs A)

/-- A trace of height `n` the verifier accepts, next to a logic table `L` of height `nL` and a Keccak table that contains the permutations of the
states in `perms`, each with its time, and nothing else. The lookups in the Keccak table compare the inputs, as multisets, and the outputs, as
multisets (`all_stark.rs`, `ctl_keccak_inputs`, `ctl_keccak_outputs`); the Keccak table itself is idealised: see C85 and C86. -/
structure Accepted (n : ℕ) (T : ℕ → Row F) (nL : ℕ) (L : ℕ → Row F) (perms : List (Keccak.Spec.State × F)) : Prop where
  constraints : Satisfies evalSponge n T
  lookup : LogUp n (looking T) (fun i => T i COUNTER) (fun i => T i FREQ)
  logicTable : Satisfies Logic.evalLogic nL L
  logic : ∀ i < n, active (T i) = 1 → LooksUpLogic nL L (T i)
  inputs : ((activeRows n T).map (fun i => keccakIn (T i))).Perm (perms.map (fun p => (stateWords p.1, p.2)))
  outputs : ((activeRows n T).map (fun i => keccakOut (T i))).Perm (perms.map (fun p => (stateWords (Keccak.Spec.keccakF p.1), p.2)))

/-! ### What the constraints say -/

/-- What the constraints say about one row. -/
structure RowOk (lv : Row F) : Prop where
  full : lv FULL = 0 ∨ lv FULL = 1
  pad : ∀ i < 136, lv (PAD i) = 0 ∨ lv (PAD i) = 1
  mono : ∀ i < 135, lv (PAD i) = 0 ∨ lv (PAD (i + 1)) = 1
  excl : lv (PAD 135) = 0 ∨ lv FULL = 0

/-- What the constraints say about the first row. -/
structure FirstOk (lv : Row F) : Prop where
  counter : lv COUNTER = 0
  abs : lv ABS = 0
  rate : ∀ k < 34, lv (RATE k) = 0
  cap : ∀ k < 16, lv (CAP k) = 0

/-- What the constraints say about two consecutive rows. -/
structure NextOk (lv nv : Row F) : Prop where
  incr : (nv COUNTER - lv COUNTER) * (nv COUNTER - lv COUNTER) - (nv COUNTER - lv COUNTER) = 0
  resetAbs : lv (PAD 135) * nv ABS = 0
  resetRate : ∀ k < 34, lv (PAD 135) * nv (RATE k) = 0
  resetCap : ∀ k < 16, lv (PAD 135) * nv (CAP k) = 0
  ctx : lv FULL * (lv CTX - nv CTX) = 0
  seg : lv FULL * (lv SEG - nv SEG) = 0
  virt : lv FULL * (lv VIRT - nv VIRT) = 0
  ts : lv FULL * (lv TS - nv TS) = 0
  dig : ∀ k < 8, lv FULL * (nv (RATE k) - le4 lv (DIG (4 * k))) = 0
  rate : ∀ k < 26, lv FULL * (nv (RATE (8 + k)) - lv (PART k)) = 0
  cap : ∀ k < 16, lv FULL * (nv (CAP k) - lv (PART (26 + k))) = 0
  abs : lv FULL * (lv ABS + 136 - nv ABS) = 0
  single : single lv * (lv (BLOCK 135) - 0x81) = 0
  first : ∀ i < 135, firstPad lv i * (lv (BLOCK i) - 1) = 0
  zero : ∀ i < 135, lv (PAD i) * (firstPad lv i - 1) * lv (BLOCK i) = 0
  last : lv (PAD 135) * (Sponge.single lv - 1) * (lv (BLOCK 135) - 0x80) = 0
  dummy : (1 - lv FULL - lv (PAD 135)) * (nv FULL + nv (PAD 135)) = 0

/-- The constraints, sorted by the rows they speak about. -/
theorem sat_iff {n : ℕ} {T : ℕ → Row F} : Satisfies evalSponge n T ↔ ∀ i < n,
    RowOk (T i) ∧ (i = 0 → FirstOk (T i)) ∧ (i + 1 ≠ n → NextOk (T i) (T ((i + 1) % n))) ∧ (i + 1 = n → T i COUNTER = 255) := by
  unfold Satisfies evalSponge
  refine forall_congr' (fun i => forall_congr' (fun hi => ?_))
  generalize T i = lv
  generalize T ((i + 1) % n) = nv
  simp only [List.forall_mem_append, List.forall_mem_map, List.forall_mem_cons, List.not_mem_nil, false_imp_iff, implies_true,
    and_true, When.applies, true_imp_iff, List.mem_range]
  constructor
  · rintro ⟨⟨⟨⟨⟨⟨⟨⟨⟨⟨⟨⟨⟨⟨⟨⟨⟨⟨⟨⟨⟨h1, h2, h3⟩, h4⟩, h5⟩, h6⟩, h7⟩, h8⟩, h9⟩, h10⟩, h11⟩, h12⟩, h13⟩, h14, h15, h16, h17⟩, h18⟩, h19⟩, h20⟩, h21⟩, h22⟩, h23⟩, h24⟩, h25⟩, h26⟩
    refine ⟨⟨BytePacking.bit_iff.1 h4, fun i hi => BytePacking.bit_iff.1 (h5 i hi), fun i hi => ?_, mul_eq_zero.1 h7⟩, fun h => ⟨h1 h, h8 h, fun k hk => h9 k hk h, fun k hk => h10 k hk h⟩,
      fun h => ⟨h2 h, h11 h, fun k hk => h12 k hk h, fun k hk => h13 k hk h, h14 h, h15 h, h16 h, h17 h, fun k hk => h18 k hk h, fun k hk => h19 k hk h,
        fun k hk => h20 k hk h, h21 h, h22 h, fun k hk => h23 k hk h, fun k hk => h24 k hk h, h25 h, h26 h⟩, fun h => sub_eq_zero.1 (h3 h)⟩
    exact (mul_eq_zero.1 (h6 i hi)).imp id sub_eq_zero.1
  · rintro ⟨hr, hf, hn, hl⟩
    exact ⟨⟨⟨⟨⟨⟨⟨⟨⟨⟨⟨⟨⟨⟨⟨⟨⟨⟨⟨⟨⟨fun h => (hf h).counter, fun h => (hn h).incr, fun h => sub_eq_zero.2 (hl h)⟩, BytePacking.bit_iff.2 hr.full⟩, fun i hi => BytePacking.bit_iff.2 (hr.pad i hi)⟩,
      fun i hi => mul_eq_zero.2 ((hr.mono i hi).imp id sub_eq_zero.2)⟩, mul_eq_zero.2 hr.excl⟩, fun h => (hf h).abs⟩, fun k hk h => (hf h).rate k hk⟩, fun k hk h => (hf h).cap k hk⟩,
      fun h => (hn h).resetAbs⟩, fun k hk h => (hn h).resetRate k hk⟩, fun k hk h => (hn h).resetCap k hk⟩, fun h => (hn h).ctx, fun h => (hn h).seg, fun h => (hn h).virt, fun h => (hn h).ts⟩,
      fun k hk h => (hn h).dig k hk⟩, fun k hk h => (hn h).rate k hk⟩, fun k hk h => (hn h).cap k hk⟩, fun h => (hn h).abs⟩, fun h => (hn h).single⟩, fun k hk h => (hn h).first k hk⟩,
      fun k hk h => (hn h).zero k hk⟩, fun h => (hn h).last⟩, fun h => (hn h).dummy⟩

end Verif.Stark.Sponge
