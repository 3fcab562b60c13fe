import Verif.Kasm.Logs
import Verif.Kasm.Storage

/-! # The instructions LOG0 to LOG4

`asm/core/log.asm:1-98`.  The instruction is refused in a static call, pays for the memory it reads, for its
topics and for its data, and then emits the log of C135. -/

namespace Verif.Kasm

variable {P : Prog} {w : World} {S : List Nat} {n k x : Nat}

/-- What the five instructions start with. -/
def logHead (lbl lno lend : String) : List I :=
  m_check_static ++ DUP 3 :: ISZERO :: (m_jumpi (.lab lbl) ++ DUP 3 :: DUP 3 :: (m_add_or_fault ++ DUP 1 ::
    (m_ensure_reasonable_offset ++ (m_num_bytes_to_num_words ++ updMem lno lend))))

/-- The state when the memory a log reads is there. -/
def World.logMem (w : World) (off n : Nat) : World := if n = 0 then w else w.grow (wordsFor (off + n))

/-- What that costs. -/
def World.logGrowth (w : World) (off n : Nat) : Nat := if n = 0 then 0 else w.growth (wordsFor (off + n))

/-- What a log costs. -/
def logGas (w : World) (l off n : Nat) : Nat := 375 + 375 * l + 8 * n + w.logGrowth off n

/-- Whether the running call may not change the state. -/
def World.static (w : World) : Prop := w.mem (w.ctx * 2 ^ 64 + 0x600000008) ≠ 0

theorem run_log_head {lbl lno lend : String} {b : List I} {off : Nat} {s : List Nat} (hU : Updates P lno lend b)
    (hl : ∀ {s w o}, Reaches P (exec P b s w) o → Reaches P (.goto (P.addr lbl) s w) o) (h : Metered w k) (ho : off < 2 ^ 256) (hn : n < 2 ^ 256)
    (hs : ¬ w.static) (hg : k / 2 ^ 192 + w.logGrowth off n ≤ w.gasLimit) :
    (0 < n → off + n ≤ 50000000) ∧ Reaches P (exec P (logHead lbl lno lend) (k :: off :: n :: s) w)
      (exec P b ((k + w.logGrowth off n * 2 ^ 192) :: off :: n :: s) (w.logMem off n)) := by
  rw [logHead]
  kexec [m_check_static]
  rw [exec_load_ctx h.ctx (by omega), Decidable.not_not.1 hs]
  kexec []
  by_cases hz : n = 0
  · subst hz
    refine ⟨fun h => absurd h (Nat.lt_irrefl 0), ?_⟩
    rw [World.logGrowth, World.logMem, if_pos rfl, if_pos rfl]
    kexec [ne_eq, not_true, if_false]
    rw [Nat.zero_mul, Nat.add_zero]
    exact hl (.refl _)
  · rw [World.logGrowth, if_neg hz] at hg
    rw [World.logGrowth, World.logMem, if_neg hz, if_neg hz]
    have hs2 : off + n ≤ 50000000 := by
      refine Decidable.byContradiction fun hc => ?_
      exact h.unreasonable (n := wordsFor (off + n)) (by simp only [wordsFor]; omega) hg
    refine ⟨fun _ => hs2, ?_⟩
    kexec [ne_eq, hz, not_false_eq_true, if_true]
    rw [exec_add_or_fault ho hn, if_pos (by omega)]
    kexec []
    have hw2 : wordsFor (off + n) ≤ 1562502 := by simp only [wordsFor]; omega
    rw [exec_reasonable, if_pos hs2, exec_num_words (by omega)]
    have := run_update (P := P) (s := off :: n :: s) hU h hw2
    rw [if_pos hg] at this
    exact this

theorem run_log_head_bad {lbl lno lend : String} {b : List I} {off : Nat} {s : List Nat} (hU : Updates P lno lend b) (h : Metered w k) (ho : off < 2 ^ 256) (hn : n < 2 ^ 256)
    (hs : w.static ∨ ¬ k / 2 ^ 192 + w.logGrowth off n ≤ w.gasLimit) :
    ∃ s' w', Reaches P (exec P (logHead lbl lno lend) (k :: off :: n :: s) w) (.goto (P.addr "fault_exception") s' w') := by
  rw [logHead]
  kexec [m_check_static]
  rw [exec_load_ctx h.ctx (by omega)]
  kexec []
  by_cases h0 : w.static
  · rw [if_neg h0]
    exact ⟨_, _, .refl _⟩
  · replace hs := hs.resolve_left h0
    rw [if_pos (Decidable.not_not.1 h0)]
    by_cases hz : n = 0
    · rw [World.logGrowth, if_pos hz] at hs
      exact absurd h.gas hs
    · rw [World.logGrowth, if_neg hz] at hs
      kexec [ne_eq, hz, not_false_eq_true, if_true]
      rw [exec_add_or_fault ho hn]
      by_cases h1 : off + n < 2 ^ 256
      · rw [if_pos h1]
        kexec []
        rw [exec_reasonable]
        by_cases hs2 : off + n ≤ 50000000
        · rw [if_pos hs2, exec_num_words (by omega)]
          have := run_update (P := P) (s := off :: n :: s) hU h (n := wordsFor (off + n)) (by simp only [wordsFor]; omega)
          rw [if_neg hs] at this
          exact ⟨_, _, this⟩
        · rw [if_neg hs2]
          exact ⟨_, _, .refl _⟩
      · rw [if_neg h1]
        exact ⟨_, _, .refl _⟩

theorem exec_charge_as {c : List I} {g G : Nat} {s : List Nat} (hg : g = G) (h : Metered w k) (hG : G < 2 ^ 63) :
    exec P (m_charge_gas ++ c) (g :: k :: s) w =
      if k / 2 ^ 192 + G ≤ w.gasLimit then exec P c ((k + G * 2 ^ 192) :: s) w else .goto (P.addr "fault_exception") ((k + G * 2 ^ 192) :: s) w := by
  subst hg
  exact exec_charge_gas h.ctx (h.serving.room hG)

theorem run_log0_tail {off : Nat} (h : Metered w k) (hn : n ≤ 50000000) :
    exec P b_log0_after_mem_gas (k :: off :: n :: S) w =
      if k / 2 ^ 192 + (375 + 375 * 0 + 8 * n) ≤ w.gasLimit then .goto (P.addr "log_n_entry") (w.self :: 0 :: n :: off :: P.addr "finish_sys_log" :: (k + (375 + 375 * 0 + 8 * n) * 2 ^ 192) :: S) w
      else .goto (P.addr "fault_exception") ((k + (375 + 375 * 0 + 8 * n) * 2 ^ 192) :: off :: n :: S) w := by
  rw [b_log0_after_mem_gas]
  kexec [m_mul_const, m_add_const]
  rw [exec_charge_as (G := 375 + 375 * 0 + 8 * n) (by simp only [wadd, wmul]; omega) h (by omega)]
  split
  · rw [exec_address h.ctx]
    kexec []
  · rfl

theorem run_log1_tail {a : Nat} {off : Nat} (h : Metered w k) (hn : n ≤ 50000000) :
    exec P b_log1_after_mem_gas (k :: off :: n :: a :: S) w =
      if k / 2 ^ 192 + (375 + 375 * 1 + 8 * n) ≤ w.gasLimit then .goto (P.addr "log_n_entry") (w.self :: 1 :: a :: n :: off :: P.addr "finish_sys_log" :: (k + (375 + 375 * 1 + 8 * n) * 2 ^ 192) :: S) w
      else .goto (P.addr "fault_exception") ((k + (375 + 375 * 1 + 8 * n) * 2 ^ 192) :: off :: n :: a :: S) w := by
  rw [b_log1_after_mem_gas]
  kexec [m_mul_const, m_add_const]
  rw [exec_charge_as (G := 375 + 375 * 1 + 8 * n) (by simp only [wadd, wmul]; omega) h (by omega)]
  split
  · rw [exec_address h.ctx]
    kexec []
  · rfl

theorem run_log2_tail {a b : Nat} {off : Nat} (h : Metered w k) (hn : n ≤ 50000000) :
    exec P b_log2_after_mem_gas (k :: off :: n :: a :: b :: S) w =
      if k / 2 ^ 192 + (375 + 375 * 2 + 8 * n) ≤ w.gasLimit then .goto (P.addr "log_n_entry") (w.self :: 2 :: a :: b :: n :: off :: P.addr "finish_sys_log" :: (k + (375 + 375 * 2 + 8 * n) * 2 ^ 192) :: S) w
      else .goto (P.addr "fault_exception") ((k + (375 + 375 * 2 + 8 * n) * 2 ^ 192) :: off :: n :: a :: b :: S) w := by
  rw [b_log2_after_mem_gas]
  kexec [m_mul_const, m_add_const]
  rw [exec_charge_as (G := 375 + 375 * 2 + 8 * n) (by simp only [wadd, wmul]; omega) h (by omega)]
  split
  · rw [exec_address h.ctx]
    kexec []
  · rfl

theorem run_log3_tail {a b c : Nat} {off : Nat} (h : Metered w k) (hn : n ≤ 50000000) :
    exec P b_log3_after_mem_gas (k :: off :: n :: a :: b :: c :: S) w =
      if k / 2 ^ 192 + (375 + 375 * 3 + 8 * n) ≤ w.gasLimit then .goto (P.addr "log_n_entry") (w.self :: 3 :: a :: b :: c :: n :: off :: P.addr "finish_sys_log" :: (k + (375 + 375 * 3 + 8 * n) * 2 ^ 192) :: S) w
      else .goto (P.addr "fault_exception") ((k + (375 + 375 * 3 + 8 * n) * 2 ^ 192) :: off :: n :: a :: b :: c :: S) w := by
  rw [b_log3_after_mem_gas]
  kexec [m_mul_const, m_add_const]
  rw [exec_charge_as (G := 375 + 375 * 3 + 8 * n) (by simp only [wadd, wmul]; omega) h (by omega)]
  split
  · rw [exec_address h.ctx]
    kexec []
  · rfl

theorem run_log4_tail {a b c d : Nat} {off : Nat} (h : Metered w k) (hn : n ≤ 50000000) :
    exec P b_log4_after_mem_gas (k :: off :: n :: a :: b :: c :: d :: S) w =
      if k / 2 ^ 192 + (375 + 375 * 4 + 8 * n) ≤ w.gasLimit then .goto (P.addr "log_n_entry") (w.self :: 4 :: a :: b :: c :: d :: n :: off :: P.addr "finish_sys_log" :: (k + (375 + 375 * 4 + 8 * n) * 2 ^ 192) :: S) w
      else .goto (P.addr "fault_exception") ((k + (375 + 375 * 4 + 8 * n) * 2 ^ 192) :: off :: n :: a :: b :: c :: d :: S) w := by
  rw [b_log4_after_mem_gas]
  kexec [m_mul_const, m_add_const]
  rw [exec_charge_as (G := 375 + 375 * 4 + 8 * n) (by simp only [wadd, wmul]; omega) h (by omega)]
  split
  · rw [exec_address h.ctx]
    kexec []
  · rfl

/-- The system call of the instruction with `l` topics. -/
def logLabel : Nat → String
  | 0 => "sys_log0"
  | 1 => "sys_log1"
  | 2 => "sys_log2"
  | 3 => "sys_log3"
  | _ => "sys_log4"

theorem logMem_metered {off : Nat} (h : Metered w k) (hg : k / 2 ^ 192 + w.logGrowth off n ≤ w.gasLimit) : Metered (w.logMem off n) (k + w.logGrowth off n * 2 ^ 192) := by
  have hk : (k + w.logGrowth off n * 2 ^ 192) / 2 ^ 192 = k / 2 ^ 192 + w.logGrowth off n := by omega
  by_cases hz : n = 0
  · rw [World.logMem, World.logGrowth, if_pos hz, if_pos hz, Nat.zero_mul, Nat.add_zero]; exact h
  · rw [World.logGrowth, if_neg hz] at hk hg ⊢
    rw [World.logMem, if_neg hz]
    refine ⟨h.ctx, by rw [hk, grow_gasLimit]; exact hg, by rw [grow_gasLimit]; exact h.limit, ?_⟩
    have := h.paid
    rw [hk, grow_words, World.growth]; omega

theorem logMem_gasLimit {off : Nat} : (w.logMem off n).gasLimit = w.gasLimit := by
  rw [World.logMem]; split
  · rfl
  · exact grow_gasLimit

theorem logMem_mem {off a : Nat} (h : a ≠ w.ctx * 2 ^ 64 + 0x60000000a) : (w.logMem off n).mem a = w.mem a := by
  rw [World.logMem]; split
  · rfl
  · exact grow_mem h

theorem logMem_ctx {off : Nat} : (w.logMem off n).ctx = w.ctx := by
  rw [World.logMem]; split <;> rfl

theorem logMem_inp {off : Nat} : (w.logMem off n).inp = w.inp := by
  rw [World.logMem]; split <;> rfl

theorem logMem_self {off : Nat} : (w.logMem off n).self = w.self := by
  rw [World.self, World.self, logMem_ctx, logMem_mem (by omega)]

/-- The code of the instruction with these topics after the memory is there. -/
abbrev LogTail (P : Prog) (b : List I) (ts : List Nat) (off n : Nat) (S : List Nat) : Prop :=
  ∀ {w k}, Metered w k → n ≤ 50000000 → exec P b (k :: off :: n :: (ts ++ S)) w =
    if k / 2 ^ 192 + (375 + 375 * ts.length + 8 * n) ≤ w.gasLimit then
      .goto (P.addr "log_n_entry") (w.self :: ts.length :: (ts ++ n :: off :: P.addr "finish_sys_log" :: (k + (375 + 375 * ts.length + 8 * n) * 2 ^ 192) :: S)) w
    else .goto (P.addr "fault_exception") ((k + (375 + 375 * ts.length + 8 * n) * 2 ^ 192) :: off :: n :: (ts ++ S)) w

theorem run_log_sys (hP : P.Has logCode) {l0 lbl lno lend : String} {b c : List I} {ts : List Nat} {off : Nat} (h0 : (l0, c) ∈ logCode) (hc : c = logHead lbl lno lend)
    (hU : Updates P lno lend b) (hl : (lbl, b) ∈ logCode) (hT : LogTail P b ts off n S) (h : Metered w k) (ho : off < 2 ^ 256) (hn : n < 2 ^ 256)
    (hs : ¬ w.static) (hg : k / 2 ^ 192 + logGas w ts.length off n ≤ w.gasLimit) :
    (0 < n → off + n ≤ 50000000) ∧ Reaches P (.goto (P.addr l0) (k :: off :: n :: (ts ++ S)) w)
      (.goto (P.addr "log_n_entry") (w.self :: ts.length :: (ts ++ n :: off :: P.addr "finish_sys_log" :: (k + logGas w ts.length off n * 2 ^ 192) :: S)) (w.logMem off n)) := by
  subst hc
  have hg1 : k / 2 ^ 192 + w.logGrowth off n ≤ w.gasLimit := by rw [logGas] at hg; omega
  obtain ⟨h1, h2⟩ := run_log_head (s := ts ++ S) hU (fun h => .enter hP hl h) h ho hn hs hg1
  refine ⟨h1, .enter hP h0 (h2.trans ?_)⟩
  rw [hT (logMem_metered h hg1) (by omega), if_pos (by rw [logMem_gasLimit]; rw [logGas] at hg; omega), logMem_self, logGas,
    show k + w.logGrowth off n * 2 ^ 192 + (375 + 375 * ts.length + 8 * n) * 2 ^ 192 = k + (375 + 375 * ts.length + 8 * n + w.logGrowth off n) * 2 ^ 192 by omega]
  exact .refl _

theorem run_log_sys_bad (hP : P.Has logCode) {l0 lbl lno lend : String} {b c : List I} {ts : List Nat} {off : Nat} (h0 : (l0, c) ∈ logCode) (hc : c = logHead lbl lno lend)
    (hU : Updates P lno lend b) (hl : (lbl, b) ∈ logCode) (hT : LogTail P b ts off n S) (h : Metered w k) (ho : off < 2 ^ 256) (hn : n < 2 ^ 256)
    (hbad : w.static ∨ ¬ k / 2 ^ 192 + logGas w ts.length off n ≤ w.gasLimit) :
    ∃ s' w', Reaches P (.goto (P.addr l0) (k :: off :: n :: (ts ++ S)) w) (.goto (P.addr "fault_exception") s' w') := by
  subst hc
  by_cases hs : w.static ∨ ¬ k / 2 ^ 192 + w.logGrowth off n ≤ w.gasLimit
  · obtain ⟨s', w', h'⟩ := run_log_head_bad (s := ts ++ S) (lbl := lbl) hU h ho hn hs
    exact ⟨s', w', .enter hP h0 h'⟩
  · obtain ⟨hs1, hs2⟩ := not_or.1 hs
    have hg1 := Decidable.not_not.1 hs2
    obtain ⟨h1, h2⟩ := run_log_head (s := ts ++ S) hU (fun h => .enter hP hl h) h ho hn hs1 hg1
    have hg2 := hbad.resolve_left hs1
    rw [hT (logMem_metered h hg1) (by omega), if_neg (by rw [logMem_gasLimit]; rw [logGas] at hg2; omega)] at h2
    exact ⟨_, _, .enter hP h0 h2⟩

theorem run_log_entry (hP : P.Has logCode) {ts : List Nat} {off : Nat} (ht : ts.length ≤ 4) (h : Metered w k) (ho : off < 2 ^ 256) (hn : n < 2 ^ 256)
    (hs : ¬ w.static) (hg : k / 2 ^ 192 + logGas w ts.length off n ≤ w.gasLimit) :
    (0 < n → off + n ≤ 50000000) ∧ Reaches P (.goto (P.addr (logLabel ts.length)) (k :: off :: n :: (ts ++ S)) w)
      (.goto (P.addr "log_n_entry") (w.self :: ts.length :: (ts ++ n :: off :: P.addr "finish_sys_log" :: (k + logGas w ts.length off n * 2 ^ 192) :: S)) (w.logMem off n)) := by
  match ts, ht with
  | [], _ =>
    exact run_log_sys hP (l0 := "sys_log0") (c := b_sys_log0) (lbl := "log0_after_mem_gas") (lno := "log@2.no_update") (lend := "log@2.end") (b := b_log0_after_mem_gas) (ts := []) (List.mem_of_getElem? (i := 0) rfl) (by rw [b_sys_log0, logHead, updMem])
      (hP.updates (List.mem_of_getElem? (i := 1) rfl) (List.mem_of_getElem? (i := 2) rfl)) (List.mem_of_getElem? (i := 3) rfl) (fun hm hn => run_log0_tail hm hn) h ho hn hs hg
  | [a], _ =>
    exact run_log_sys hP (l0 := "sys_log1") (c := b_sys_log1) (lbl := "log1_after_mem_gas") (lno := "log@4.no_update") (lend := "log@4.end") (b := b_log1_after_mem_gas) (ts := [a]) (List.mem_of_getElem? (i := 4) rfl) (by rw [b_sys_log1, logHead, updMem])
      (hP.updates (List.mem_of_getElem? (i := 5) rfl) (List.mem_of_getElem? (i := 6) rfl)) (List.mem_of_getElem? (i := 7) rfl) (fun hm hn => run_log1_tail hm hn) h ho hn hs hg
  | [a, b], _ =>
    exact run_log_sys hP (l0 := "sys_log2") (c := b_sys_log2) (lbl := "log2_after_mem_gas") (lno := "log@6.no_update") (lend := "log@6.end") (b := b_log2_after_mem_gas) (ts := [a, b]) (List.mem_of_getElem? (i := 8) rfl) (by rw [b_sys_log2, logHead, updMem])
      (hP.updates (List.mem_of_getElem? (i := 9) rfl) (List.mem_of_getElem? (i := 10) rfl)) (List.mem_of_getElem? (i := 11) rfl) (fun hm hn => run_log2_tail hm hn) h ho hn hs hg
  | [a, b, c], _ =>
    exact run_log_sys hP (l0 := "sys_log3") (c := b_sys_log3) (lbl := "log3_after_mem_gas") (lno := "log@8.no_update") (lend := "log@8.end") (b := b_log3_after_mem_gas) (ts := [a, b, c]) (List.mem_of_getElem? (i := 12) rfl) (by rw [b_sys_log3, logHead, updMem])
      (hP.updates (List.mem_of_getElem? (i := 13) rfl) (List.mem_of_getElem? (i := 14) rfl)) (List.mem_of_getElem? (i := 15) rfl) (fun hm hn => run_log3_tail hm hn) h ho hn hs hg
  | [a, b, c, d], _ =>
    exact run_log_sys hP (l0 := "sys_log4") (c := b_sys_log4) (lbl := "log4_after_mem_gas") (lno := "log@10.no_update") (lend := "log@10.end") (b := b_log4_after_mem_gas) (ts := [a, b, c, d]) (List.mem_of_getElem? (i := 16) rfl) (by rw [b_sys_log4, logHead, updMem])
      (hP.updates (List.mem_of_getElem? (i := 17) rfl) (List.mem_of_getElem? (i := 18) rfl)) (List.mem_of_getElem? (i := 19) rfl) (fun hm hn => run_log4_tail hm hn) h ho hn hs hg
  | _ :: _ :: _ :: _ :: _ :: _, ht => simp only [List.length_cons] at ht; omega

/-- A LOG instruction in a static call, or that cannot be paid, is refused. -/
theorem C136_refused (hP : P.Has logCode) {ts : List Nat} {off : Nat} (ht : ts.length ≤ 4) (h : Metered w k) (ho : off < 2 ^ 256) (hn : n < 2 ^ 256)
    (hbad : w.static ∨ ¬ k / 2 ^ 192 + logGas w ts.length off n ≤ w.gasLimit) :
    ∃ s' w', Reaches P (.goto (P.addr (logLabel ts.length)) (k :: off :: n :: (ts ++ S)) w) (.goto (P.addr "fault_exception") s' w') := by
  match ts, ht with
  | [], _ =>
    exact run_log_sys_bad hP (l0 := "sys_log0") (c := b_sys_log0) (lbl := "log0_after_mem_gas") (lno := "log@2.no_update") (lend := "log@2.end") (b := b_log0_after_mem_gas) (ts := []) (List.mem_of_getElem? (i := 0) rfl) (by rw [b_sys_log0, logHead, updMem])
      (hP.updates (List.mem_of_getElem? (i := 1) rfl) (List.mem_of_getElem? (i := 2) rfl)) (List.mem_of_getElem? (i := 3) rfl) (fun hm hn => run_log0_tail hm hn) h ho hn hbad
  | [a], _ =>
    exact run_log_sys_bad hP (l0 := "sys_log1") (c := b_sys_log1) (lbl := "log1_after_mem_gas") (lno := "log@4.no_update") (lend := "log@4.end") (b := b_log1_after_mem_gas) (ts := [a]) (List.mem_of_getElem? (i := 4) rfl) (by rw [b_sys_log1, logHead, updMem])
      (hP.updates (List.mem_of_getElem? (i := 5) rfl) (List.mem_of_getElem? (i := 6) rfl)) (List.mem_of_getElem? (i := 7) rfl) (fun hm hn => run_log1_tail hm hn) h ho hn hbad
  | [a, b], _ =>
    exact run_log_sys_bad hP (l0 := "sys_log2") (c := b_sys_log2) (lbl := "log2_after_mem_gas") (lno := "log@6.no_update") (lend := "log@6.end") (b := b_log2_after_mem_gas) (ts := [a, b]) (List.mem_of_getElem? (i := 8) rfl) (by rw [b_sys_log2, logHead, updMem])
      (hP.updates (List.mem_of_getElem? (i := 9) rfl) (List.mem_of_getElem? (i := 10) rfl)) (List.mem_of_getElem? (i := 11) rfl) (fun hm hn => run_log2_tail hm hn) h ho hn hbad
  | [a, b, c], _ =>
    exact run_log_sys_bad hP (l0 := "sys_log3") (c := b_sys_log3) (lbl := "log3_after_mem_gas") (lno := "log@8.no_update") (lend := "log@8.end") (b := b_log3_after_mem_gas) (ts := [a, b, c]) (List.mem_of_getElem? (i := 12) rfl) (by rw [b_sys_log3, logHead, updMem])
      (hP.updates (List.mem_of_getElem? (i := 13) rfl) (List.mem_of_getElem? (i := 14) rfl)) (List.mem_of_getElem? (i := 15) rfl) (fun hm hn => run_log3_tail hm hn) h ho hn hbad
  | [a, b, c, d], _ =>
    exact run_log_sys_bad hP (l0 := "sys_log4") (c := b_sys_log4) (lbl := "log4_after_mem_gas") (lno := "log@10.no_update") (lend := "log@10.end") (b := b_log4_after_mem_gas) (ts := [a, b, c, d]) (List.mem_of_getElem? (i := 16) rfl) (by rw [b_sys_log4, logHead, updMem])
      (hP.updates (List.mem_of_getElem? (i := 17) rfl) (List.mem_of_getElem? (i := 18) rfl)) (List.mem_of_getElem? (i := 19) rfl) (fun hm hn => run_log4_tail hm hn) h ho hn hbad
  | _ :: _ :: _ :: _ :: _ :: _, ht => simp only [List.length_cons] at ht; omega

/-- A LOG instruction that is allowed and paid goes back to the user with the gas charged and the log of the
running account added; or there is no proof, which happens only if the prover supplies wrong numbers. -/
theorem C136_emitted (hP : P.LogsIn) {ts : List Nat} {off : Nat} (hw : Words w) (hts : ∀ t ∈ ts, t < 2 ^ 256) (ht : ts.length ≤ 4) (h : Metered w k) (ho : off < 2 ^ 256) (hn : n < 2 ^ 256)
    (hi : ∀ j < 3, w.inp j < 2 ^ 256) (hk : w.mem logsLen < 2 ^ 32) (hd : w.mem logsDataLen + (8 + n) ≤ 2 ^ 32) (hq : w.mem logsPayload < 2 ^ 64)
    (hj : w.mem jourLen < 2 ^ 32) (hjd : w.mem jdatLen + 3 ≤ 2 ^ 32)
    (hs : ¬ w.static) (hg : k / 2 ^ 192 + logGas w ts.length off n ≤ w.gasLimit) :
    (¬ LogHints w ts.length n (rlpStr (beFix 20 w.self) ++ (rlpList (topicsRlp ts) ++ rlpStr (w.data off n))).length ∧
      (Reaches P (.goto (P.addr (logLabel ts.length)) (k :: off :: n :: (ts ++ S)) w) .panic ∨ Reaches P (.goto (P.addr (logLabel ts.length)) (k :: off :: n :: (ts ++ S)) w) .stuck)) ∨
    ∃ w', Reaches P (.goto (P.addr (logLabel ts.length)) (k :: off :: n :: (ts ++ S)) w) (.exit (k + logGas w ts.length off n * 2 ^ 192) S w') ∧
      LogAdded (w.logMem off n) w' w.self ts (w.data off n) := by
  obtain ⟨h1, h2⟩ := run_log_entry (S := S) hP.has ht h ho hn hs hg
  have hm : ∀ {a}, a < 0x600000000 → (w.logMem off n).mem a = w.mem a := fun h => logMem_mem (by omega)
  have hdata : (w.logMem off n).data off n = w.data off n := by
    rw [World.data, World.data, logMem_ctx]
    refine List.map_congr_left fun i hi => logMem_mem ?_
    have hi := List.mem_range.1 hi
    have := h1 (by omega)
    generalize w.ctx * 2 ^ 64 = z
    omega
  have hw1 : Words (w.logMem off n) := by
    rw [World.logMem]; split
    · exact hw
    · rename_i hz
      refine hw.set ?_
      have := h1 (by omega)
      have := hw (w.ctx * 2 ^ 64 + 0x60000000a)
      simp only [World.memWords, wordsFor] at *
      omega
  have := C135_log (P := P) (w := w.logMem off n) (n := n) (ret := P.addr "finish_sys_log") (S := (k + logGas w ts.length off n * 2 ^ 192) :: S) hP (x := w.self) (off := off) (ts := ts)
    hw1 (hw _) hts ht (by rw [logMem_ctx]; exact h.ctx) (fun h => by have := h1 h; omega) ho (by rw [logMem_inp]; exact hi)
    (by rw [hm (by decide)]; exact hk) (by rw [hm (by decide)]; exact hd) (by rw [hm (by decide)]; exact hq) (by rw [hm (by decide)]; exact hj) (by rw [hm (by decide)]; exact hjd)
  rw [hdata] at this
  rcases this with ⟨a, b⟩ | ⟨s, w', a, rfl, b⟩
  · refine .inl ⟨fun hh => a ?_, b.imp h2.trans h2.trans⟩
    simp only [LogHints, logMem_inp]; exact hh
  · refine .inr ⟨w', h2.trans (a.trans ?_), b⟩
    enter hP.has in logCode
    rw [b_finish_sys_log]
    kexec []
    exact .refl _

/-- The logs of the transaction are then those before and this one. -/
theorem C136_logs {ts : List Nat} {off : Nat} {w' : World} {ls : List LogItem} {data : List Nat} (h : LogsAre w ls) (hk : ls.length < 2 ^ 32) (hd : (logsRecords ls).length ≤ 2 ^ 32)
    (ha : LogAdded (w.logMem off n) w' x ts data) : LogsAre w' (ls ++ [⟨x, ts, data⟩]) := by
  refine C135_order (w := w.logMem off n) (l := ⟨x, ts, data⟩) ⟨?_, fun i hi => ?_, fun i hi => ?_, ?_, ?_⟩ hk hd ha
  · rw [logMem_mem (by simp only [logsLen]; omega)]; exact h.count
  · rw [logMem_mem (by omega)]; exact h.places i hi
  · rw [logMem_mem (by omega)]; exact h.records i hi
  · rw [logMem_mem (by simp only [logsDataLen]; omega)]; exact h.next
  · rw [logMem_mem (by simp only [logsPayload]; omega)]; exact h.payload

/-- The account 7 runs in context 1 with a gas limit of 10000. -/
def logWorld : World := ⟨fun a => if a = 2 ^ 64 + 0x600000004 then 7 else if a = 2 ^ 64 + 0x60000000c then 10000 else 0, 1, fun _ => 7⟩

theorem logWorld_metered : Metered logWorld 5 := ⟨by decide, by decide +kernel, by decide +kernel, by decide +kernel⟩

theorem logWorld_gas : logGas logWorld 2 40 3 = 1155 := by decide +kernel

/-- It runs LOG2 on three bytes of its memory and pays 1155. -/
example : ∃ w', Reaches logsProg (.goto (logsProg.addr "sys_log2") [5, 40, 3, 1, 2, 99] logWorld) (.exit (5 + 1155 * 2 ^ 192) [99] w') ∧
    LogsAre w' [⟨7, [1, 2], [0, 0, 0]⟩] := by
  have hw : Words logWorld := fun a => by
    simp only [logWorld]; split
    · decide
    · split <;> decide
  have hself : logWorld.self = 7 := by decide +kernel
  have hdata : logWorld.data 40 3 = [0, 0, 0] := by decide +kernel
  have h := C136_emitted (S := [99]) logsProg_ok (ts := [1, 2]) (off := 40) (n := 3) hw (by decide) (by decide) logWorld_metered (by decide) (by decide) (fun _ _ => show 7 < 2 ^ 256 by decide)
    (by decide +kernel) (by decide +kernel) (by decide +kernel) (by decide +kernel) (by decide +kernel) (by unfold World.static; decide +kernel) (by decide +kernel)
  rw [hself, hdata] at h
  rcases h with ⟨h, -⟩ | ⟨w', h1, h2⟩
  · exact absurd (by unfold LogHints; decide +kernel) h
  · rw [show logGas logWorld [1, 2].length 40 3 = 1155 from logWorld_gas] at h1
    exact ⟨w', h1, C136_logs (ls := []) (logsAre_nil (by decide +kernel) (by decide +kernel) (by decide +kernel)) (by decide) (by decide) h2⟩

/-- With less gas it is refused. -/
example : ∃ s w', Reaches logsProg (.goto (logsProg.addr "sys_log2") [5 + 9000 * 2 ^ 192, 40, 3, 1, 2, 99] logWorld) (.goto (logsProg.addr "fault_exception") s w') :=
  C136_refused (S := [99]) logsProg_ok.has (ts := [1, 2]) (off := 40) (n := 3) (by decide) ⟨by decide, by decide +kernel, by decide +kernel, by decide +kernel⟩ (by decide) (by decide)
    (.inr (by decide +kernel))

end Verif.Kasm
