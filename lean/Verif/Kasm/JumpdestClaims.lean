import Verif.Kasm.Jumpdest
import Verif.Kasm.ListClaims

/-! Properties C106 and C107: which positions of user code the kernel takes for jump destinations.
The prover tells the kernel which ones to look at, and where to begin; a property has to hold
whatever it tells. -/

namespace Verif.Kasm

variable {P : Prog} {w : World} {code : Nat → Nat}

/-- The prover's `k` pairs name jump destinations in the first `n` bytes, and each position that goes
with one is 0 or far enough before it and fit to begin behind. -/
def Honest (w : World) (code : Nat → Nat) (n k : Nat) : Prop :=
  ∀ i < k, w.inp (2 * i) ≤ n ∧ JumpOk code (w.inp (2 * i) - 1) ∧
    (w.inp (2 * i + 1) = 0 ∨ (w.inp (2 * i + 1) + 32 ≤ w.inp (2 * i) - 1 ∧ Clean code (w.inp (2 * i + 1))))

/-- What marking the jump destinations of the code in context `c` must do: give back the stack, and
change nothing but set to 1 the marks of positions below `n` that are jump destinations; with an
honest prover, of all that the prover has named. -/
def MarksDests (w : World) (c : Nat) (code : Nat → Nat) (n k : Nat) (s s' : List Nat) (w' : World) : Prop :=
  s' = s ∧ w'.ctx = w.ctx ∧
    (∀ b, w'.mem b ≠ w.mem b →
      ∃ j, j < n ∧ JumpOk code j ∧ b = c * 2 ^ 64 + bitsBase + j ∧ w'.mem b = 1) ∧
    (Honest w code n k → ∀ i < k, w'.mem (c * 2 ^ 64 + bitsBase + (w.inp (2 * i) - 1)) = 1)

/-- C106 in full: whatever the prover supplies, `jumpdest_analysis` marks only jump destinations or
does not come back; with an honest prover it comes back. -/
def C106_statement : Prop :=
  ∀ (P : Prog) (w : World) (code : Nat → Nat) (c n k ret : Nat) (s : List Nat), P.Has jumpCode →
    c < 2 ^ 32 → n ≤ 2 ^ 32 → CodeIs w c code → HasTable P w → (∀ i, w.inp i < 2 ^ 256) →
    (∀ i < k, w.inp (2 * i) ≠ 0) → w.inp (2 * k) = 0 →
    Returns P (Honest w code n k) (.goto (P.addr "jumpdest_analysis") ((c * 2 ^ 64) :: n :: ret :: s) w) ret
      (MarksDests w c code n k s)

/-- What does hold: all of it if no position, counted from the beginning of the context, wraps around
at 2^256. -/
theorem C106_jumpdests_partial {c n k ret : Nat} {s : List Nat} (hP : P.Has jumpCode) (hc : c < 2 ^ 32)
    (hn : n ≤ 2 ^ 32) (hcode : CodeIs w c code) (htab : HasTable P w)
    (hne : ∀ i < k, w.inp (2 * i) ≠ 0) (h0 : w.inp (2 * k) = 0)
    (hwrap : ∀ i < k, w.inp (2 * i + 1) + 32 + c * 2 ^ 64 < 2 ^ 256) :
    Returns P (Honest w code n k) (.goto (P.addr "jumpdest_analysis") ((c * 2 ^ 64) :: n :: ret :: s) w) ret
      (MarksDests w c code n k s) := by
  refine (run_analysis hP hc hn k w hcode htab hne h0 hwrap).mono (fun h i hi => ?_) ?_
  · obtain ⟨h1, _, h3⟩ := h i hi
    refine ⟨h1, fun _ h4 => ?_⟩
    rcases h3 with h3 | ⟨h3, h5⟩
    · exact absurd h3 h4
    · exact ⟨by omega, h5⟩
  · rintro s' w' ⟨h1, h2, h3, h4⟩
    refine ⟨h1, h2, fun b hb => (h3 b).resolve_left hb, fun h i hi => ?_⟩
    obtain ⟨_, h5, h6⟩ := h i hi
    refine h4 i hi h5 ?_
    simp only [walkFrom]
    split
    · omega
    · rename_i hne
      rcases h6 with h6 | h6
      · exact absurd h6 hne
      · exact h6.1

/-- A position that wraps around begins the walk in memory below the context.  A word there that is no
byte leads past the end of the table of instruction lengths, to another word, and that word can
take the walk to any `0x5b` of the code. -/
theorem run_analysis_wrap {c n jd a x v ret : Nat} {s : List Nat} (hP : P.Has jumpCode) (hc : c < 2 ^ 32)
    (hcode : CodeIs w c code) (htab : HasTable P w) (hn : n ≤ 2 ^ 32) (hjd : jd < n) (h5b : code jd = 0x5b)
    (hi0 : w.inp 0 = jd + 1) (hi1 : w.inp 1 + c * 2 ^ 64 = 2 ^ 256 + a) (hi2 : w.inp 2 = 0)
    (ha : a + 32 < c * 2 ^ 64) (hseg : SegOk a) (hseg32 : a % 2 ^ 32 + 33 ≤ 2 ^ 32)
    (hclean : ∀ m < 32, m + instrLen (w.mem (a + m) % 256) ≤ 32)
    (hx : w.mem (a + 32) = x) (hx5 : x ≠ 0x5b) (hxw : x + 2 ^ 24 < 2 ^ 256)
    (hxs : SegOk (x + P.addr "code_bytes_to_skip")) (hv : w.mem (key (x + P.addr "code_bytes_to_skip")) = v)
    (hto : v + (a + 32) = c * 2 ^ 64 + jd) :
    Reaches P (.goto (P.addr "jumpdest_analysis") ((c * 2 ^ 64) :: n :: ret :: s) w)
      (.goto ret s (w.next.next.set (c * 2 ^ 64 + bitsBase + jd) 1).next) := by
  enter hP.jumpdest in jumpdestCode
  kexec [b_jumpdest_analysis, exec_input']
  rw [hi0, if_neg (by omega)]
  enter hP.jumpdest in jumpdestCode
  kexec [b_check_proof, m_assert_le0, m_assert_zero0, m_decrement, m_sub_const, exec_input']
  rw [if_pos (by omega), wsub_small (by omega) (by omega), Nat.add_sub_cancel]
  enter hP.jumpdest in jumpdestCode
  kexec [b_write_table_if_jumpdest]
  rw [wadd_small (by omega), exec_mload_ctx hc (by omega),
    show w.next.next.mem (c * 2 ^ 64 + jd) = 0x5b from (hcode jd (by omega)).1.trans h5b]
  kexec [m_jump_neq_const]
  have hp : w.next.inp 0 = 2 ^ 256 + a - c * 2 ^ 64 := by show w.inp 1 = _; omega
  rw [if_pos (by decide), if_pos (by omega), hp]
  have hw1 : wadd (c * 2 ^ 64) (2 ^ 256 + a - c * 2 ^ 64) = a := by simp only [wadd]; omega
  have hka : key a = a := by simp only [key]; omega
  rw [hw1, exec_mload32 ⟨hseg, by omega, by omega⟩, hka]
  kexec [m_shl_const, m_and_const, m_add_const]
  change Reaches P (if packed (beVal (bytesAt w.next.next a 32)) = 0 then _ else _) _
  rw [if_pos ((packed_eq_zero _ (beVal_bytesAt_lt _ a)).2 fun m hm => by
    have := hclean (31 - m) (by omega)
    rw [show w.mem (a + (31 - m)) = w.next.next.mem (a + (31 - m)) from rfl, ← dig_bytesAt _ _ _ (by omega),
      show 31 - (31 - m) = m by omega] at this
    exact this)]
  enter hP.jumpdest in jumpdestCode
  kexec [b_verify_path_and_write_jumpdest_table]
  have hw2 : wadd (wadd 32 (2 ^ 256 + a - c * 2 ^ 64)) (c * 2 ^ 64) = a + 32 := by simp only [wadd]; omega
  rw [hw2, wadd_small (by omega)]
  kexec [b_loop_jumpdest_analysis]
  have htl := htab.1
  rw [if_pos (by omega), if_pos (by omega), exec_mload (by simp only [SegOk] at *; omega),
    show key (a + 32) = a + 32 by simp only [key]; omega, show w.next.next.mem (a + 32) = x from hx]
  kexec []
  rw [if_neg (by rw [wsub_eq_zero (by omega) (by omega)]; omega)]
  enter hP.jumpdest in jumpdestCode
  kexec [b_continue, m_add_const, m_mload_kernel_code0]
  rw [wadd_small (by omega), Nat.add_comm _ x, exec_mload hxs,
    show w.next.next.mem (key (x + P.addr "code_bytes_to_skip")) = v from hv]
  kexec []
  rw [wadd_small (by omega), hto]
  enter hP.jumpdest in jumpdestCode
  kexec [b_loop_jumpdest_analysis]
  rw [if_neg (by simp)]
  enter hP.jumpdest in jumpdestCode
  kexec [b_proof_ok]
  rw [wadd_small (by omega), show 0xe00000000 + (c * 2 ^ 64 + jd) = c * 2 ^ 64 + (bitsBase + jd) by
      simp only [bitsBase]; omega, exec_mstore_ctx hc (by simp only [bitsBase]; omega), ← Nat.add_assoc]
  kexec []
  enter hP.jumpdest in jumpdestCode
  kexec [b_jumpdest_analysis_1_after]
  enter hP.jumpdest in jumpdestCode
  kexec [b_jumpdest_analysis, exec_input']
  rw [show (w.next.next.set (c * 2 ^ 64 + bitsBase + jd) 1).inp 0 = 0 from hi2, if_pos rfl]
  kexec [b_jumpdest_analysis_end, m_pop2, rep]
  exact .refl _

/-! ### A small memory for examples -/

/-- A kernel with the code of the analysis, and two places that jump to themselves. -/
def jumpAll : List (String × List I) :=
  ("here", [.push (.lab "here"), JUMP]) :: ("fault_exception", [.push (.lab "fault_exception"), JUMP]) :: jumpCode

def jumpProg : Prog := Prog.of jumpAll (fun _ => 0)

theorem jumpProg_all : jumpProg.Has jumpAll :=
  Prog.of_has jumpAll (fun _ => 0) (by decide +kernel) (by decide +kernel)

theorem jumpProg_has : jumpProg.Has jumpCode :=
  jumpProg_all.mono fun _ hp => List.mem_cons_of_mem _ (List.mem_cons_of_mem _ hp)

theorem jumpProg_here (s : List Nat) (w : World) :
    exec jumpProg (jumpProg.code (jumpProg.addr "here")) s w = .goto (jumpProg.addr "here") s w := by
  have h := jumpProg_all ("here", [.push (.lab "here"), JUMP]) (by simp [jumpAll])
  rw [h.1]; kexec []

theorem jumpProg_fault (s : List Nat) (w : World) :
    exec jumpProg (jumpProg.code (jumpProg.addr "fault_exception")) s w
      = .goto (jumpProg.addr "fault_exception") s w := by
  have h := jumpProg_all ("fault_exception", [.push (.lab "fault_exception"), JUMP]) (by simp [jumpAll])
  rw [h.1]; kexec []

theorem jumpProg_table : jumpProg.addr "code_bytes_to_skip" = 19 := by decide +kernel

/-- Code of context 2: `PUSH1 0x5b JUMPDEST`, then zeros. -/
def exCode (i : Nat) : Nat := if i = 0 then 0x60 else if i = 1 ∨ i = 2 then 0x5b else 0

/-- The memory of the example: the table; the code, in context 2; and two words on the stack of
context 1, which has called it. -/
def jumpMem (a : Nat) : Nat :=
  if 19 ≤ a ∧ a < 275 then skipBytes.getD (a - 19) 0 else
  if a = 2 * 2 ^ 64 then 0x60 else if a = 2 * 2 ^ 64 + 1 ∨ a = 2 * 2 ^ 64 + 2 then 0x5b else
  if a = 2 ^ 64 + 2 ^ 32 + 40 then 2 ^ 64 + 2 ^ 32 + 41 - 19 else
  if a = 2 ^ 64 + 2 ^ 32 + 41 then 2 * 2 ^ 64 + 1 - (2 ^ 64 + 2 ^ 32 + 40) else 0

theorem jumpMem_bits (j : Nat) (hj : j < 2 ^ 32) : jumpMem (2 * 2 ^ 64 + bitsBase + j) = 0 := by
  have hb : bitsBase = 14 * 2 ^ 32 := rfl
  generalize bitsBase = B at hb ⊢
  unfold jumpMem
  rw [if_neg (by omega), if_neg (by omega), if_neg (by omega), if_neg (by omega), if_neg (by omega)]

/-- The example: the prover names position `d` and gives `p` with it. -/
def jumpWorld (d p : Nat) : World where
  ctx := 2
  mem := jumpMem
  inp i := if i = 0 then d + 1 else if i = 1 then p else 0

theorem exCode_lt (i : Nat) : exCode i < 256 := by
  simp only [exCode]; split <;> (try split) <;> omega

theorem jumpWorld_code (d p : Nat) : CodeIs (jumpWorld d p) 2 exCode := by
  intro i hi
  refine ⟨?_, exCode_lt i⟩
  show jumpMem (2 * 2 ^ 64 + i) = exCode i
  simp only [jumpMem, exCode]
  rw [if_neg (by omega)]
  by_cases h0 : i = 0
  · subst h0; simp
  · rw [if_neg (by omega), if_neg h0]
    by_cases h1 : i = 1 ∨ i = 2
    · rw [if_pos (by omega), if_pos h1]
    · rw [if_neg (by omega), if_neg h1, if_neg (by omega), if_neg (by omega)]

theorem jumpWorld_table (d p : Nat) : HasTable jumpProg (jumpWorld d p) := by
  rw [HasTable, jumpProg_table]
  refine ⟨by decide, fun b hb => ?_⟩
  show jumpMem (19 + b) = _
  rw [jumpMem, if_pos (by omega), show 19 + b - 19 = b by omega]

/-- Position 1 of the example is data of the instruction before it, position 2 a jump destination. -/
theorem exCode_ok : ¬ JumpOk exCode 1 ∧ JumpOk exCode 2 := by
  refine ⟨fun h => ?_, .next .first, by decide⟩
  have := Boundary.no_inside .first h.1 (by decide)
  exact absurd this (by decide)

/-- C106 in full is false: with the position that leads to the caller's stack, `0x5b` in the data of
a `PUSH` is marked. -/
theorem C106_jumpdests_violated : ¬ C106_statement := by
  intro h
  have h1 := h jumpProg (jumpWorld 1 (2 ^ 256 + (2 ^ 64 + 2 ^ 32 + 8) - 2 * 2 ^ 64)) exCode 2 3 1
    (jumpProg.addr "here") [] jumpProg_has (by decide) (by decide) (jumpWorld_code _ _) (jumpWorld_table _ _)
    (fun i => by simp only [jumpWorld]; split <;> (try split) <;> omega) (fun i hi => by
      have : i = 0 := by omega
      subst this; decide) (by decide)
  have h2 := h1.only jumpProg_here (run_analysis_wrap (c := 2) (n := 3) (jd := 1) (a := 2 ^ 64 + 2 ^ 32 + 8) jumpProg_has
    (by decide) (jumpWorld_code _ _) (jumpWorld_table _ _) (by decide) (by decide) (by decide) (by decide) (by decide)
    (by decide) (by decide) (by decide) (by decide) (by decide) rfl (by decide) (by decide)
    (by rw [jumpProg_table]; decide) (by rw [jumpProg_table]) (by decide))
  obtain ⟨j, _, h3, h4, _⟩ := h2.2.2.1 (2 * 2 ^ 64 + bitsBase + 1) (by decide)
  have : j = 1 := by omega
  subst this
  exact exCode_ok.1 h3

/-- With position 0 the jump destination of the example is marked, and only it. -/
example : ∃ w', Reaches jumpProg (.goto (jumpProg.addr "jumpdest_analysis") [2 * 2 ^ 64, 3, 77] (jumpWorld 2 0))
      (.goto 77 [] w') ∧ w'.mem (2 * 2 ^ 64 + bitsBase + 2) = 1 ∧ w'.mem (2 * 2 ^ 64 + bitsBase + 1) = 0 := by
  have hh : Honest (jumpWorld 2 0) exCode 3 1 := by
    intro i hi
    have : i = 0 := by omega
    subst this
    exact ⟨by decide, exCode_ok.2, .inl (by decide)⟩
  obtain ⟨s, w', h1, rfl, h2, h3, h4⟩ := (C106_jumpdests_partial (k := 1) (ret := 77) (s := []) jumpProg_has (by decide)
    (by decide : 3 ≤ 2 ^ 32) (jumpWorld_code 2 0) (jumpWorld_table 2 0) (fun i hi => by
      have : i = 0 := by omega
      subst this; decide) (by decide) (fun i hi => by
      have : i = 0 := by omega
      subst this; decide)).sure hh
  refine ⟨w', h1, h4 hh 0 (by decide), ?_⟩
  by_cases e : w'.mem (2 * 2 ^ 64 + bitsBase + 1) = (jumpWorld 2 0).mem (2 * 2 ^ 64 + bitsBase + 1)
  · rw [e]; decide
  · obtain ⟨j, _, h5, h6, _⟩ := h3 _ e
    have : j = 1 := by omega
    subst this
    exact absurd h5 exCode_ok.1

/-! ### Jumps that the prover says are invalid -/

/-- C107 in full: a jump that the user's code makes is answered with a fault only if its destination
is no jump destination of the code, whatever the prover supplies; and if it is none, there is
something the prover can supply for which it is.  Code that is being run may be init code, and has
up to 49152 bytes (`MAX_INITCODE_SIZE`, `constants/mod.rs:382`). -/
def C107_statement : Prop :=
  ∀ (P : Prog) (w : World) (code : Nat → Nat) (n d : Nat) (s : List Nat), P.Has jumpCode →
    w.ctx < 2 ^ 32 → n ≤ 49152 → (∀ i, n ≤ i → code i = 0) → CodeIs w w.ctx code → HasTable P w →
    (∀ j < 2 ^ 32, w.mem (w.ctx * 2 ^ 64 + bitsBase + j) ≠ 0 → JumpOk code j) → d < 2 ^ 256 →
    Returns P (¬ JumpOk code d ∧ w.inp 0 = 0)
      (.goto (P.addr "invalid_jump_jumpi_destination_common") (d :: s) w) (P.addr "fault_exception")
      (fun _ _ => ¬ JumpOk code d)

/-- What does hold: all of it for code that is short enough to be deployed, if the position that the
prover supplies is not one of the 32 that end at the destination. -/
theorem C107_invalid_jump_partial {n d : Nat} {s : List Nat} (hP : P.Has jumpCode)
    (hc : w.ctx < 2 ^ 32) (hz : ∀ i, n ≤ i → code i = 0) (hcode : CodeIs w w.ctx code)
    (htab : HasTable P w) (hbits : ∀ j < 2 ^ 32, w.mem (w.ctx * 2 ^ 64 + bitsBase + j) ≠ 0 → JumpOk code j)
    (hd : d < 2 ^ 256) (hn : n ≤ 24576 ∨ d ≤ 24576)
    (hp : w.inp 0 = 0 ∨ w.inp 0 + 32 ≤ d ∨ d < w.inp 0) :
    Returns P (¬ JumpOk code d ∧ w.inp 0 = 0)
      (.goto (P.addr "invalid_jump_jumpi_destination_common") (d :: s) w) (P.addr "fault_exception")
      (fun _ _ => ¬ JumpOk code d) := by
  refine (run_invalid_jump hP hc hd hcode htab).mono (fun ⟨h1, h2⟩ => ?_) ?_
  · by_cases hlt : 24576 < d
    · exact .inl hlt
    · refine .inr ⟨by omega, fun h => absurd h2 h, ?_, fun h => absurd h h1⟩
      by_cases e : w.mem (w.ctx * 2 ^ 64 + bitsBase + d) = 0
      · exact e
      · exact absurd (hbits d (by omega) e) h1
  · rintro s' w' (⟨h1, _⟩ | ⟨h1, _, h2, h3⟩) hok
    · have := hz d (by omega)
      have := hok.2
      omega
    · have := h3 hok
      simp only [walkFrom] at this
      split at this <;> omega

/-- C107 in full is false in two ways.  A jump beyond 24576 is answered with a fault for any code.  And
so is a jump to a destination that is not marked yet, if the prover's position is one of the 32 that
end there and is fit to begin behind: the walk then begins behind the destination. -/
theorem C107_invalid_jump_violated :
    (∀ (P : Prog) (w : World) (code : Nat → Nat) (d : Nat) (s : List Nat), P.Has jumpCode →
      w.ctx < 2 ^ 32 → CodeIs w w.ctx code → HasTable P w → d < 2 ^ 256 →
      (24576 < d ∨ (d ≤ 24576 ∧ d < w.inp 0 + 32 ∧ w.inp 0 ≤ d ∧ w.inp 0 ≠ 0 ∧ Clean code (w.inp 0) ∧
        w.mem (w.ctx * 2 ^ 64 + bitsBase + d) = 0)) →
      ∃ s' w', Reaches P (.goto (P.addr "invalid_jump_jumpi_destination_common") (d :: s) w)
        (.goto (P.addr "fault_exception") s' w')) ∧
    ¬ C107_statement := by
  have hall : ∀ (P : Prog) (w : World) (code : Nat → Nat) (d : Nat) (s : List Nat), P.Has jumpCode →
      w.ctx < 2 ^ 32 → CodeIs w w.ctx code → HasTable P w → d < 2 ^ 256 →
      (24576 < d ∨ (d ≤ 24576 ∧ d < w.inp 0 + 32 ∧ w.inp 0 ≤ d ∧ w.inp 0 ≠ 0 ∧ Clean code (w.inp 0) ∧
        w.mem (w.ctx * 2 ^ 64 + bitsBase + d) = 0)) →
      ∃ s' w', Reaches P (.goto (P.addr "invalid_jump_jumpi_destination_common") (d :: s) w)
        (.goto (P.addr "fault_exception") s' w') := by
    intro P w code d s hP hc hcode htab hd h
    obtain ⟨s', w', h1, _⟩ := (run_invalid_jump (s := s) hP hc hd hcode htab).sure (by
      rcases h with h | ⟨h1, h2, h3, h4, h5, h6⟩
      · exact .inl h
      · exact .inr ⟨h3, fun _ => h5, h6, fun _ => by rw [walkFrom, if_neg h4]; exact h2⟩)
    exact ⟨s', w', h1⟩
  refine ⟨hall, fun h => ?_⟩
  have hok : JumpOk exCode 2 := exCode_ok.2
  let w : World := { jumpWorld 2 0 with inp := fun _ => 1 }
  have hcl : Clean exCode 1 := by
    unfold Clean; decide
  obtain ⟨s', w', hr⟩ := hall jumpProg w exCode 2 [] jumpProg_has (by decide) (jumpWorld_code 2 0)
    (jumpWorld_table 2 0) (by decide) (.inr ⟨by decide, by decide, by decide, by decide, hcl, by decide⟩)
  exact (h jumpProg w exCode 3 2 [] jumpProg_has (by decide) (by decide)
    (fun i hi => by simp only [exCode]; rw [if_neg (by omega), if_neg (by omega)]) (jumpWorld_code 2 0)
    (jumpWorld_table 2 0) (fun j hj hne => absurd (jumpMem_bits j hj) hne)
    (by decide)).only jumpProg_fault hr hok

/-- Position 1 of the example is not a jump destination; a jump there is answered with a fault if the
prover supplies 0. -/
example : ∃ s' w', Reaches jumpProg (.goto (jumpProg.addr "invalid_jump_jumpi_destination_common") [1]
    { jumpWorld 0 0 with inp := fun _ => 0 }) (.goto (jumpProg.addr "fault_exception") s' w') := by
  let w : World := { jumpWorld 0 0 with inp := fun _ => 0 }
  have hcode : CodeIs w w.ctx exCode := jumpWorld_code 0 0
  obtain ⟨s', w', h1, _⟩ := (C107_invalid_jump_partial (w := w) (n := 3) (d := 1) (s := []) jumpProg_has (by decide)
    (fun i hi => by simp only [exCode]; rw [if_neg (by omega), if_neg (by omega)]) hcode
    (jumpWorld_table 0 0) (fun j hj hne => absurd (jumpMem_bits j hj) hne)
    (by decide) (.inl (by decide)) (.inl rfl)).sure ⟨exCode_ok.1, rfl⟩
  exact ⟨s', w', h1⟩

end Verif.Kasm
