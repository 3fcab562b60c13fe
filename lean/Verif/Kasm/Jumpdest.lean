import Verif.Kasm.Packed
import Verif.Kasm.Code.Jumpdest
import Verif.Kasm.Code.LinkedList

/-! The jump destinations of user code as the kernel marks them
(`asm/core/jumpdest_analysis.asm`), and its answer to a jump that the prover says is invalid
(`asm/core/exception.asm:126-148`). -/

namespace Verif.Kasm

/-! ### Specification -/

/-- The positions of `code` at which an instruction begins (yellow paper, section 9.4.3): the first
one, and what follows an instruction. -/
inductive Boundary (code : Nat → Nat) : Nat → Prop
  | first : Boundary code 0
  | next {i : Nat} : Boundary code i → Boundary code (i + instrLen (code i))

/-- Where a program may jump to: a `JUMPDEST` (0x5b) that is an instruction, not data of one. -/
def JumpOk (code : Nat → Nat) (i : Nat) : Prop := Boundary code i ∧ code i = 0x5b

/-- No instruction read in the 32 bytes from `p` on reaches past them. -/
def Clean (code : Nat → Nat) (p : Nat) : Prop := ∀ n < 32, n + instrLen (code (p + n)) ≤ 32

/-- Then an instruction begins behind them: one that begins before `p` is too short to reach
further. -/
theorem Clean.boundary {code : Nat → Nat} {p : Nat} (h : Clean code p) : Boundary code (p + 32) := by
  have hex : ∀ k, (∃ q, Boundary code q ∧ q < p + 32 ∧ p + 32 ≤ q + instrLen (code q)) ∨
      ∃ q, Boundary code q ∧ q < p + 32 ∧ k ≤ q := by
    intro k
    induction k with
    | zero => exact .inr ⟨0, .first, by omega, by omega⟩
    | succ k ih =>
      rcases ih with ih | ⟨q, hq, hlt, hk⟩
      · exact .inl ih
      · by_cases hn : p + 32 ≤ q + instrLen (code q)
        · exact .inl ⟨q, hq, hlt, hn⟩
        · have := instrLen_pos (code q)
          exact .inr ⟨_, .next hq, by omega, by omega⟩
  rcases hex (p + 32) with ⟨q, hq, hlt, hn⟩ | ⟨q, _, hlt, hk⟩
  · have e : q + instrLen (code q) = p + 32 := by
      by_cases hp : p ≤ q
      · have := h (q - p) (by omega)
        rw [show p + (q - p) = q by omega] at this
        omega
      · have := instrLen_le (code q); omega
    rw [← e]; exact .next hq
  · omega

/-- The beginnings of the instructions in order. -/
def nthStart (code : Nat → Nat) : Nat → Nat
  | 0 => 0
  | n + 1 => nthStart code n + instrLen (code (nthStart code n))

theorem nthStart_mono {code : Nat → Nat} {a b : Nat} (h : a < b) :
    nthStart code a + instrLen (code (nthStart code a)) ≤ nthStart code b := by
  induction b with
  | zero => omega
  | succ b ih =>
    rw [nthStart]
    by_cases e : a = b
    · rw [e]; omega
    · have := ih (by omega); omega

theorem Boundary.nth {code : Nat → Nat} {i : Nat} (h : Boundary code i) : ∃ n, i = nthStart code n := by
  induction h with
  | first => exact ⟨0, rfl⟩
  | next _ ih => obtain ⟨n, rfl⟩ := ih; exact ⟨n + 1, rfl⟩

/-- Instructions do not overlap: none begins inside another. -/
theorem Boundary.no_inside {code : Nat → Nat} {i j : Nat} (hi : Boundary code i) (hj : Boundary code j)
    (h : i < j) : i + instrLen (code i) ≤ j := by
  obtain ⟨a, rfl⟩ := hi.nth
  obtain ⟨b, rfl⟩ := hj.nth
  have hab : a < b := by
    by_cases e : a < b
    · exact e
    · by_cases e2 : a = b
      · subst e2; omega
      · have := nthStart_mono (code := code) (show b < a by omega); omega
  exact nthStart_mono hab

/-! ### The state -/

/-- The segment of the marks, `JumpdestBits`. -/
def bitsBase : Nat := 14 * 2 ^ 32

/-- Context `c` holds this code, in bytes. -/
def CodeIs (w : World) (c : Nat) (code : Nat → Nat) : Prop :=
  ∀ i < 2 ^ 32, w.mem (c * 2 ^ 64 + i) = code i ∧ code i < 256

/-- The bytes at `code_bytes_to_skip` (`asm/core/jumpdest_analysis.asm:64-104`). -/
def skipBytes : List Nat :=
  List.replicate 96 1 ++ [2, 3, 4, 5, 6, 7, 8, 9, 10, 11, 12, 13, 14, 15, 16, 17, 18, 19, 20, 21, 22,
    23, 24, 25, 26, 27, 28, 29, 30, 31, 32, 33] ++ List.replicate 128 1

/-- The kernel's own code is in context 0 from address 0 on; this says it of that table. -/
def HasTable (P : Prog) (w : World) : Prop :=
  P.addr "code_bytes_to_skip" < 2 ^ 24 ∧
    ∀ b < 256, w.mem (P.addr "code_bytes_to_skip" + b) = skipBytes.getD b 0

theorem skipBytes_eq : ∀ b < 256, skipBytes.getD b 0 = instrLen b := by decide +kernel

/-- The memory has changed from `w` to `w'` only in that the jump destinations of `code` from `lo`
to `hi` have been marked. -/
def Marks (w w' : World) (c : Nat) (code : Nat → Nat) (lo hi : Nat) : Prop :=
  w'.ctx = w.ctx ∧ w'.inp = w.inp ∧
    (∀ j, lo ≤ j → j ≤ hi → JumpOk code j → w'.mem (c * 2 ^ 64 + bitsBase + j) = 1) ∧
    ∀ b, (∀ j, lo ≤ j → j ≤ hi → JumpOk code j → b ≠ c * 2 ^ 64 + bitsBase + j) → w'.mem b = w.mem b

theorem Marks.none {w : World} {c lo hi : Nat} {code : Nat → Nat} (h : hi < lo) :
    Marks w w c code lo hi := ⟨rfl, rfl, fun j h1 h2 => by omega, fun _ _ => rfl⟩

theorem Marks.code {w w' : World} {c lo hi : Nat} {code : Nat → Nat} (hw : CodeIs w c code)
    (h : Marks w w' c code lo hi) : CodeIs w' c code := by
  intro i hi
  rw [h.2.2.2 _ (fun j _ h2 _ => by simp only [bitsBase]; omega)]
  exact hw i hi

theorem Marks.table {P : Prog} {w w' : World} {c lo hi : Nat} {code : Nat → Nat} (hw : HasTable P w)
    (h : Marks w w' c code lo hi) : HasTable P w' := by
  refine ⟨hw.1, fun b hb => ?_⟩
  have := hw.1
  rw [h.2.2.2 _ (fun j _ h2 _ => by simp only [bitsBase]; omega)]
  exact hw.2 b hb

/-! ### The code -/

def jumpCode : List (String × List I) := ("panic", b_panic) :: jumpdestCode

theorem Prog.Has.jumpdest {P : Prog} (h : P.Has jumpCode) : P.Has jumpdestCode :=
  h.mono fun _ hp => List.mem_cons_of_mem _ hp

theorem reach_panicJ {P : Prog} (hP : P.Has jumpCode) {s : List Nat} {w : World} :
    Reaches P (.goto (P.addr "panic") s w) .panic := by
  refine Reaches.enter hP (List.mem_cons_self ..) ?_
  simp only [b_panic, exec_panic]; exact .refl _

theorem exec_mload_ctx {P : Prog} {cd : List I} {s : List Nat} {w : World} {c i : Nat} (hc : c < 2 ^ 32)
    (hi : i < 39 * 2 ^ 32) :
    exec P (MLOAD_GENERAL :: cd) ((c * 2 ^ 64 + i) :: s) w
      = exec P cd (w.mem (c * 2 ^ 64 + i) :: s) w := by
  rw [exec_mload (by simp only [SegOk]; omega), show key (c * 2 ^ 64 + i) = c * 2 ^ 64 + i by
    simp only [key]; omega]

theorem exec_mstore_ctx {P : Prog} {cd : List I} {s : List Nat} {w : World} {c i v : Nat}
    (hc : c < 2 ^ 32) (hi : i < 39 * 2 ^ 32) :
    exec P (MSTORE_GENERAL :: cd) (v :: (c * 2 ^ 64 + i) :: s) w
      = exec P cd s (w.set (c * 2 ^ 64 + i) v) := by
  rw [exec_mstore (by simp only [SegOk]; omega), show key (c * 2 ^ 64 + i) = c * 2 ^ 64 + i by
    simp only [key]; omega]

theorem exec_mload32 {P : Prog} {cd : List I} {s : List Nat} {w : World} {a n : Nat}
    (h : SegOk a ∧ n ≤ 32 ∧ a % 2 ^ 32 + n ≤ 2 ^ 32) :
    exec P (MLOAD_32BYTES :: cd) (a :: n :: s) w
      = exec P cd (beVal (bytesAt w (key a) n) :: s) w := by
  simp only [exec, h, and_self, if_true]

theorem exec_mload32_bad {P : Prog} {cd : List I} {s : List Nat} {w : World} {a n : Nat}
    (h : ¬ (SegOk a ∧ n ≤ 32 ∧ a % 2 ^ 32 + n ≤ 2 ^ 32)) :
    exec P (MLOAD_32BYTES :: cd) (a :: n :: s) w = .stuck := by
  simp only [exec, h, if_false]

/-- The walk from the beginning of an instruction marks every jump destination up to `hi`. -/
theorem run_walk {P : Prog} (hP : P.Has jumpCode) {c : Nat} (hc : c < 2 ^ 32) {code : Nat → Nat}
    {hi ret : Nat} {s : List Nat} (hhi : hi < 2 ^ 32) (h5b : code hi = 0x5b) :
    ∀ (n i : Nat) (w : World), hi + 34 - i ≤ n → i ≤ hi + 33 → CodeIs w c code → HasTable P w → Boundary code i →
      ∃ w', Reaches P (exec P b_loop_jumpdest_analysis
          ((c * 2 ^ 64 + i) :: (c * 2 ^ 64 + hi) :: ret :: s) w) (.goto ret s w') ∧
        Marks w w' c code i hi := by
  intro n
  induction n with
  | zero => intro i w hn hle; omega
  | succ n ih =>
    intro i w hn hle hcode htab hb
    kexec [b_loop_jumpdest_analysis]
    split
    · rename_i hne
      have hne' : i ≠ hi := fun e => hne (by rw [e])
      split
      · rename_i hge
        have hlt : i < hi := by omega
        have hr := (hcode i (by omega)).1
        have hby := (hcode i (by omega)).2
        rw [exec_mload_ctx hc (by omega), hr]
        have htab' := htab.1
        have hwalk : ∀ w', CodeIs w' c code → HasTable P w' → ∃ w'', Reaches P (exec P b_continue
            (code i :: (c * 2 ^ 64 + i) :: (c * 2 ^ 64 + hi) :: ret :: s) w') (.goto ret s w'') ∧
              Marks w' w'' c code (i + instrLen (code i)) hi := by
          intro w' hcode' htab'
          have hl := instrLen_pos (code i)
          have hl2 := instrLen_le (code i)
          obtain ⟨w'', h1, h2⟩ := ih (i + instrLen (code i)) w' (by omega) (by omega) hcode' htab' (.next hb)
          refine ⟨w'', ?_, h2⟩
          kexec [b_continue, m_add_const, m_mload_kernel_code0]
          rw [wadd_small (by omega), exec_mload_at (by omega), htab'.2 _ hby, skipBytes_eq _ hby]
          kexec []
          enter hP.jumpdest in jumpdestCode
          rw [wadd_small (by omega), show instrLen (code i) + (c * 2 ^ 64 + i)
            = c * 2 ^ 64 + (i + instrLen (code i)) by omega]
          exact h1
        kexec []
        simp only [wsub_eq_zero (show 91 < 2 ^ 256 by omega) (show code i < 2 ^ 256 by omega)]
        split
        · rename_i he
          rw [wadd_small (by omega), show 0xe00000000 + (c * 2 ^ 64 + i) = c * 2 ^ 64 + (bitsBase + i) by
            simp only [bitsBase]; omega, exec_mstore_ctx hc (by simp only [bitsBase]; omega)]
          have hok : JumpOk code i := ⟨hb, he.symm⟩
          obtain ⟨w', h1, h2⟩ := hwalk (w.set (c * 2 ^ 64 + (bitsBase + i)) 1)
            (fun k hk => by rw [set_ne (by simp only [bitsBase]; omega)]; exact hcode k hk)
            ⟨htab.1, fun b hb => by rw [set_ne (by simp only [bitsBase]; omega)]; exact htab.2 b hb⟩
          refine ⟨w', h1, h2.1, h2.2.1, ?_, ?_⟩
          · intro j h3 h4 h5
            by_cases e : j = i
            · subst e
              have hl := instrLen_pos (code j)
              have hk : ∀ k, j + instrLen (code j) ≤ k → k ≤ hi → JumpOk code k →
                  c * 2 ^ 64 + bitsBase + j ≠ c * 2 ^ 64 + bitsBase + k :=
                fun k h6 _ _ h7 => by have := Nat.add_left_cancel h7; omega
              rw [h2.2.2.2 _ hk, Nat.add_assoc, set_same]
            · exact h2.2.2.1 j (Boundary.no_inside hb h5.1 (by omega)) h4 h5
          · intro b h3
            have hl := instrLen_pos (code i)
            rw [h2.2.2.2 b (fun k h6 h7 h8 => h3 k (by omega) h7 h8),
              set_ne (by rw [← Nat.add_assoc]; exact h3 i (Nat.le_refl _) (by omega) hok)]
        · rename_i he
          obtain ⟨w', h1, h2⟩ := hwalk w hcode htab
          refine ⟨w', ?_, h2.1, h2.2.1, ?_, ?_⟩
          · enter hP.jumpdest in jumpdestCode
            exact h1
          · intro j h3 h4 h5
            by_cases e : j = i
            · subst e; exact absurd h5.2.symm he
            · exact h2.2.2.1 j (Boundary.no_inside hb h5.1 (by omega)) h4 h5
          · intro b h3
            have hl := instrLen_pos (code i)
            exact h2.2.2.2 b (fun k h6 h7 h8 => h3 k (by omega) h7 h8)
      · rename_i hge
        refine ⟨w, ?_, Marks.none (by omega)⟩
        enter hP.jumpdest in jumpdestCode
        kexec [b_proof_not_ok, m_pop2, rep]
        exact .refl _
    · rename_i hne
      have e : i = hi := by omega
      subst e
      refine ⟨w.set (c * 2 ^ 64 + bitsBase + i) 1, ?_, rfl, rfl, ?_, ?_⟩
      · enter hP.jumpdest in jumpdestCode
        kexec [b_proof_ok]
        rw [wadd_small (by omega), show 0xe00000000 + (c * 2 ^ 64 + i) = c * 2 ^ 64 + (bitsBase + i) by
            simp only [bitsBase]; omega, exec_mstore_ctx hc (by simp only [bitsBase]; omega)]
        kexec []
        rw [← Nat.add_assoc]; exact .refl _
      · intro j h1 h2 _
        have e : j = i := by omega
        subst e; rw [set_same]
      · intro b h
        exact set_ne (h i (Nat.le_refl _) (Nat.le_refl _) ⟨hb, h5b⟩)

/-- A walk that begins behind its end does nothing. -/
theorem run_walk_past {P : Prog} (hP : P.Has jumpCode) {a f ret : Nat} {s : List Nat} {w : World}
    (h : f < a) :
    Reaches P (exec P b_loop_jumpdest_analysis (a :: f :: ret :: s) w) (.goto ret s w) := by
  kexec [b_loop_jumpdest_analysis]
  rw [if_pos (by omega), if_neg (by omega)]
  enter hP.jumpdest in jumpdestCode
  kexec [b_proof_not_ok, m_pop2, rep]
  exact .refl _

/-- Where the walk begins for the position that the prover has given. -/
def walkFrom (proof : Nat) : Nat := if proof = 0 then 0 else proof + 32

/-- `write_table_if_jumpdest`, for positions that do not wrap around. -/
theorem run_write_table {P : Prog} (hP : P.Has jumpCode) {c : Nat} (hc : c < 2 ^ 32)
    {code : Nat → Nat} {proof jd ret : Nat} {s : List Nat} {w : World} (hj : jd < 2 ^ 32)
    (hcode : CodeIs w c code) (htab : HasTable P w) (hwrap : proof + 32 + c * 2 ^ 64 < 2 ^ 256) :
    Returns P (code jd = 0x5b → proof ≠ 0 → proof + 32 ≤ 2 ^ 32 ∧ Clean code proof)
      (.goto (P.addr "write_table_if_jumpdest") (proof :: jd :: (c * 2 ^ 64) :: ret :: s) w) ret
      (fun s' w' => s' = s ∧ (code jd = 0x5b → Marks w w' c code (walkFrom proof) jd) ∧
        (code jd ≠ 0x5b → w' = w)) := by
  renter hP.jumpdest in jumpdestCode
  kexec [b_write_table_if_jumpdest]
  rw [wadd_small (by omega), exec_mload_ctx hc (by omega), (hcode jd hj).1]
  kexec [m_jump_neq_const]
  have hby := (hcode jd hj).2
  simp only [wsub_eq_zero (show 91 < 2 ^ 256 by omega) (show code jd < 2 ^ 256 by omega)]
  split
  · rename_i h5b
    split
    · rename_i hp
      rw [wadd_small (by omega)]
      by_cases hm : SegOk (c * 2 ^ 64 + proof) ∧ (32 : Nat) ≤ 32 ∧ (c * 2 ^ 64 + proof) % 2 ^ 32 + 32 ≤ 2 ^ 32
      rotate_left
      · rw [exec_mload32_bad hm]
        refine .stuck fun h => hm ?_
        have := (h h5b.symm hp).1
        refine ⟨by simp only [SegOk]; omega, by omega, by omega⟩
      rw [exec_mload32 hm]
      kexec [m_shl_const, m_and_const, m_add_const]
      change Returns P _ (if packed (beVal (bytesAt w (key (c * 2 ^ 64 + proof)) 32)) = 0 then _ else _) _ _
      have hpk := packed_eq_zero _ (beVal_bytesAt_lt w (key (c * 2 ^ 64 + proof)))
      have hcl : proof < 2 ^ 32 →
          (packed (beVal (bytesAt w (key (c * 2 ^ 64 + proof)) 32)) = 0 ↔ Clean code proof) := by
        intro hlt
        have hk : key (c * 2 ^ 64 + proof) = c * 2 ^ 64 + proof := by simp only [key]; omega
        have hd : ∀ n < 32, dig (beVal (bytesAt w (key (c * 2 ^ 64 + proof)) 32)) (31 - n) = code (proof + n) := by
          intro n hn
          have h1 := hm.2.2
          obtain ⟨h2, h3⟩ := hcode (proof + n) (by omega)
          rw [dig_bytesAt _ _ _ hn, hk, Nat.add_assoc, h2, Nat.mod_eq_of_lt h3]
        rw [hpk]
        constructor
        · intro h n hn
          have := h (31 - n) (by omega)
          rw [hd n hn] at this; omega
        · intro h m hm'
          have := h (31 - m) (by omega)
          rw [← hd (31 - m) (by omega), show 31 - (31 - m) = m by omega] at this; omega
      generalize packed (beVal (bytesAt w (key (c * 2 ^ 64 + proof)) 32)) = pk at hcl ⊢
      have hwf : walkFrom proof = proof + 32 := if_neg hp
      split
      · rename_i h0
        renter hP.jumpdest in jumpdestCode
        kexec [b_verify_path_and_write_jumpdest_table]
        rw [wadd_small (a := 32) (by omega), wadd_small (by omega), wadd_small (by omega)]
        by_cases hlt : proof < 2 ^ 32
        · by_cases hin : proof + 32 ≤ jd + 33
          · obtain ⟨w', h1, h2⟩ := run_walk hP hc (ret := ret) (s := s) hj h5b.symm _ (proof + 32) w (Nat.le_refl _) hin
              hcode htab ((hcl hlt).1 h0).boundary
            rw [Nat.add_comm 32 proof, Nat.add_comm (proof + 32)]
            refine .of h1 (.ret ⟨rfl, fun _ => by rw [hwf]; exact h2, fun h => absurd h5b.symm h⟩)
          · refine .of (run_walk_past hP (by omega)) (.ret ⟨rfl, fun _ => .none ?_, fun _ => rfl⟩)
            omega
        · refine .of (run_walk_past hP (by omega)) (.ret ⟨rfl, fun _ => .none ?_, fun _ => rfl⟩)
          omega
      · rename_i h0
        refine .of (reach_panicJ hP) (.panic fun h => ?_)
        obtain ⟨h1, h2⟩ := h h5b.symm hp
        exact h0 ((hcl (by omega)).2 h2)
    · rename_i hp
      have hp : proof = 0 := by omega
      subst hp
      renter hP.jumpdest in jumpdestCode
      kexec [b_verify_path_and_write_jumpdest_table]
      rw [wadd_small (by omega), wadd_small (by omega)]
      obtain ⟨w', h1, h2⟩ := run_walk hP hc (ret := ret) (s := s) hj h5b.symm _ 0 w (Nat.le_refl _) (by omega)
        hcode htab .first
      rw [Nat.add_comm 0 (c * 2 ^ 64)]
      exact .of h1 (.ret ⟨rfl, fun _ => h2, fun h => absurd h5b.symm h⟩)
  · rename_i h5b
    renter hP.jumpdest in jumpdestCode
    kexec [b_return, m_pop3, rep]
    exact .ret ⟨rfl, fun h => absurd h.symm h5b, fun _ => rfl⟩

theorem Returns.andThen {P : Prog} {H : Prop} {o : Out} {r ret : Nat} {Q Q' : List Nat → World → Prop}
    (h : Returns P H o r Q) (h' : ∀ s w, Q s w → Returns P H (.goto r s w) ret Q') :
    Returns P H o ret Q' := by
  rcases h with h | ⟨s, w, h1, h2⟩
  · exact .inl h
  · exact .of h1 (h' s w h2)

/-- `jumpdest_analysis`, for a prover that gives `k` pairs of an address plus one and a position that
does not wrap around, and then 0. -/
theorem run_analysis {P : Prog} (hP : P.Has jumpCode) {c : Nat} (hc : c < 2 ^ 32)
    {code : Nat → Nat} {n ret : Nat} {s : List Nat} (hn : n ≤ 2 ^ 32) :
    ∀ (k : Nat) (w : World), CodeIs w c code → HasTable P w →
      (∀ i < k, w.inp (2 * i) ≠ 0) → w.inp (2 * k) = 0 →
      (∀ i < k, w.inp (2 * i + 1) + 32 + c * 2 ^ 64 < 2 ^ 256) →
      Returns P (∀ i < k, w.inp (2 * i) ≤ n ∧ (code (w.inp (2 * i) - 1) = 0x5b → w.inp (2 * i + 1) ≠ 0 →
          w.inp (2 * i + 1) + 32 ≤ 2 ^ 32 ∧ Clean code (w.inp (2 * i + 1))))
        (.goto (P.addr "jumpdest_analysis") ((c * 2 ^ 64) :: n :: ret :: s) w) ret
        (fun s' w' => s' = s ∧ w'.ctx = w.ctx ∧
          (∀ b, w'.mem b = w.mem b ∨
            ∃ j, j < n ∧ JumpOk code j ∧ b = c * 2 ^ 64 + bitsBase + j ∧ w'.mem b = 1) ∧
          ∀ i < k, JumpOk code (w.inp (2 * i) - 1) → walkFrom (w.inp (2 * i + 1)) ≤ w.inp (2 * i) - 1 →
            w'.mem (c * 2 ^ 64 + bitsBase + (w.inp (2 * i) - 1)) = 1) := by
  intro k
  induction k with
  | zero =>
    intro w hcode htab _ h0 _
    renter hP.jumpdest in jumpdestCode
    kexec [b_jumpdest_analysis, exec_input']
    rw [show w.inp 0 = 0 from h0, if_pos rfl]
    kexec [b_jumpdest_analysis_end, m_pop2, rep]
    exact .ret ⟨rfl, rfl, fun b => .inl rfl, fun i hi => by omega⟩
  | succ k ih =>
    intro w hcode htab hne h0 hwrap
    renter hP.jumpdest in jumpdestCode
    kexec [b_jumpdest_analysis, exec_input']
    have ha : w.inp 0 ≠ 0 := hne 0 (by omega)
    have hw0 : w.inp 1 + 32 + c * 2 ^ 64 < 2 ^ 256 := hwrap 0 (by omega)
    rw [if_neg ha]
    renter hP.jumpdest in jumpdestCode
    kexec [b_check_proof, m_assert_le0, m_assert_zero0, m_decrement, m_sub_const, exec_input']
    split
    rotate_left
    · refine .of (reach_panicJ hP) (.panic fun h => ?_)
      have := (h 0 (by omega)).1
      simp only [Nat.mul_zero] at this
      omega
    rename_i hle
    rw [wsub_small (by omega) (by omega)]
    have hw1 : CodeIs w.next.next c code := hcode
    have ht1 : HasTable P w.next.next := htab
    refine Returns.andThen ((run_write_table hP hc (ret := P.addr "jumpdest_analysis@1.after")
      (s := (c * 2 ^ 64) :: n :: ret :: s) (show w.inp 0 - 1 < 2 ^ 32 by omega) hw1 ht1
      (show w.next.inp 0 + 32 + c * 2 ^ 64 < 2 ^ 256 from hw0)).mono
      (fun h => (h 0 (by omega)).2) (fun _ _ h => h)) ?_
    rintro s' w' ⟨rfl, hm, hs⟩
    renter hP.jumpdest in jumpdestCode
    kexec [b_jumpdest_analysis_1_after]
    have hinp : w'.inp = fun i => w.inp (i + 2) := by
      by_cases h : code (w.inp 0 - 1) = 0x5b
      · rw [(hm h).2.1]; rfl
      · rw [hs h]; rfl
    have hctx : w'.ctx = w.ctx := by
      by_cases h : code (w.inp 0 - 1) = 0x5b
      · rw [(hm h).1]; rfl
      · rw [hs h]; rfl
    have hcode' : CodeIs w' c code := by
      by_cases h : code (w.inp 0 - 1) = 0x5b
      · exact (hm h).code hw1
      · rw [hs h]; exact hcode
    have htab' : HasTable P w' := by
      by_cases h : code (w.inp 0 - 1) = 0x5b
      · exact (hm h).table ht1
      · rw [hs h]; exact htab
    have hmem : ∀ b, w'.mem b = w.mem b ∨
        ∃ j, j < n ∧ JumpOk code j ∧ b = c * 2 ^ 64 + bitsBase + j ∧ w'.mem b = 1 := by
      intro b
      by_cases h : code (w.inp 0 - 1) = 0x5b
      · by_cases hb : ∃ j, walkFrom (w.next.inp 0) ≤ j ∧ j ≤ w.inp 0 - 1 ∧ JumpOk code j ∧
            b = c * 2 ^ 64 + bitsBase + j
        · obtain ⟨j, h1, h2, h3, rfl⟩ := hb
          exact .inr ⟨j, by omega, h3, rfl, (hm h).2.2.1 j h1 h2 h3⟩
        · left
          rw [(hm h).2.2.2 b (fun j h1 h2 h3 h4 => hb ⟨j, h1, h2, h3, h4⟩)]; rfl
      · left; rw [hs h]; rfl
    have hfirst : JumpOk code (w.inp 0 - 1) → walkFrom (w.inp 1) ≤ w.inp 0 - 1 →
        w'.mem (c * 2 ^ 64 + bitsBase + (w.inp 0 - 1)) = 1 := fun h1 h2 =>
      (hm h1.2).2.2.1 _ h2 (Nat.le_refl _) h1
    have e2 : ∀ i, 2 * i + 2 = 2 * (i + 1) := fun i => by omega
    have e3 : ∀ i, 2 * i + 1 + 2 = 2 * (i + 1) + 1 := fun i => by omega
    refine (ih w' hcode' htab' (fun i hi => ?_) ?_ (fun i hi => ?_)).mono (fun h i hi => ?_) ?_
    · rw [hinp]; exact hne (i + 1) (by omega)
    · rw [hinp]; exact h0
    · rw [hinp]; exact hwrap (i + 1) (by omega)
    · rw [hinp]; exact h (i + 1) (by omega)
    · rintro s'' w'' ⟨rfl, h1, h2, h3⟩
      refine ⟨rfl, by rw [h1, hctx], fun b => ?_, fun i hi hok hle => ?_⟩
      · rcases h2 b with h2 | h2
        · rcases hmem b with h4 | ⟨j, h4, h5, h6, h7⟩
          · exact .inl (h2.trans h4)
          · exact .inr ⟨j, h4, h5, h6, h2.trans h7⟩
        · exact .inr h2
      · cases i with
        | zero =>
          rcases h2 (c * 2 ^ 64 + bitsBase + (w.inp 0 - 1)) with h4 | ⟨_, _, _, _, h4⟩
          · exact h4.trans (hfirst hok hle)
          · exact h4
        | succ i =>
          have := h3 i (by omega)
          rw [hinp] at this
          exact this hok hle

/-- `verify_non_jumpdest`. -/
theorem run_verify_non {P : Prog} (hP : P.Has jumpCode) {code : Nat → Nat} {a ret : Nat} {s : List Nat}
    {w : World} (hc : w.ctx < 2 ^ 32) (ha : a + 32 ≤ 2 ^ 32) (hcode : CodeIs w w.ctx code) (htab : HasTable P w) :
    Returns P (w.inp 0 ≤ a ∧ (code a = 0x5b → w.inp 0 ≠ 0 → Clean code (w.inp 0)))
      (.goto (P.addr "verify_non_jumpdest") (a :: ret :: s) w) ret
      (fun s' w' => s' = s ∧ w.inp 0 ≤ a ∧
        (code a = 0x5b → Marks w.next w' w.ctx code (walkFrom (w.inp 0)) a) ∧
        (code a ≠ 0x5b → w' = w.next)) := by
  renter hP.jumpdest in jumpdestCode
  kexec [b_verify_non_jumpdest, exec_input', m_assert_le0, m_assert_zero0]
  split
  rotate_left
  · refine .of (reach_panicJ hP) (.panic fun h => ?_)
    omega
  rename_i hle
  have hw1 : CodeIs w.next w.ctx code := hcode
  have ht1 : HasTable P w.next := htab
  refine Returns.andThen ((run_write_table hP hc (ret := P.addr "jumpdest_analysis@2.after")
      (s := ret :: s) (by omega) hw1 ht1 (show w.inp 0 + 32 + w.ctx * 2 ^ 64 < 2 ^ 256 by omega)).mono
      (fun h h1 h2 => ⟨?_, h.2 h1 h2⟩) (fun _ _ h => h)) ?_
  · omega
  · rintro s' w' ⟨rfl, hm, hs⟩
    renter hP.jumpdest in jumpdestCode
    kexec [b_jumpdest_analysis_2_after]
    exact .ret ⟨rfl, hle, hm, hs⟩

/-- `invalid_jump_jumpi_destination_common`: what is known when it comes to the fault. -/
theorem run_invalid_jump {P : Prog} (hP : P.Has jumpCode) {code : Nat → Nat} {d : Nat} {s : List Nat}
    {w : World} (hc : w.ctx < 2 ^ 32) (hd : d < 2 ^ 256) (hcode : CodeIs w w.ctx code) (htab : HasTable P w) :
    Returns P (24576 < d ∨ w.inp 0 ≤ d ∧ (w.inp 0 ≠ 0 → Clean code (w.inp 0)) ∧
        w.mem (w.ctx * 2 ^ 64 + bitsBase + d) = 0 ∧ (JumpOk code d → d < walkFrom (w.inp 0)))
      (.goto (P.addr "invalid_jump_jumpi_destination_common") (d :: s) w) (P.addr "fault_exception")
      (fun s' _ => (24576 < d ∧ s' = d :: s) ∨
        (d ≤ 24576 ∧ s' = s ∧ w.inp 0 ≤ d ∧ (JumpOk code d → d < walkFrom (w.inp 0)))) := by
  renter hP.jumpdest in jumpdestCode
  kexec [b_invalid_jump_jumpi_destination_common]
  split
  rotate_left
  · exact .ret (.inl ⟨by omega, rfl⟩)
  rename_i hle
  refine Returns.andThen ((run_verify_non hP (ret := P.addr "exception@1.after") (s := d :: s) hc
    (show d + 32 ≤ 2 ^ 32 by omega) hcode htab).mono (fun h => ?_) (fun _ _ h => h)) ?_
  · rcases h with h | ⟨h1, h2⟩
    · omega
    · exact ⟨h1, fun _ => h2.1⟩
  rintro s' w' ⟨rfl, hp, hm, hs⟩
  renter hP.jumpdest in jumpdestCode
  kexec [b_exception_1_after, m_mload_current, m_build_address]
  have hctx : w'.ctx = w.ctx := by
    by_cases h : code d = 0x5b
    · rw [(hm h).1]; rfl
    · rw [hs h]; rfl
  rw [hctx, wadd_small (b := 0xe00000000) (by omega), wadd_small (by omega),
    show w.ctx * 2 ^ 64 + 0xe00000000 + d = w.ctx * 2 ^ 64 + (bitsBase + d) by simp only [bitsBase]; omega,
    exec_mload_ctx hc (by simp only [bitsBase]; omega)]
  kexec []
  split
  · rename_i h0
    refine .ret (.inr ⟨hle, rfl, hp, fun hok => ?_⟩)
    by_cases hlt : d < walkFrom (w.inp 0)
    · exact hlt
    · have := (hm hok.2).2.2.1 d (by omega) (Nat.le_refl _) hok
      rw [Nat.add_assoc] at this; omega
  · rename_i h0
    refine .of (reach_panicJ hP) (.panic fun h => ?_)
    rcases h with h | ⟨h1, h2, h3, h6⟩
    · omega
    · refine h0 ?_
      rw [← Nat.add_assoc]
      by_cases h : code d = 0x5b
      · rw [(hm h).2.2.2 _ (fun j h7 _ h4 h5 => by
          have e := Nat.add_left_cancel h5
          subst e
          have := h6 h4; omega)]
        exact h3
      · rw [hs h]; exact h3

end Verif.Kasm
