import Verif.Kasm.NewAddress
import Verif.Kasm.Journal
import Verif.Kasm.Env
import Verif.Kasm.Revert
import Verif.Kasm.MemSys
import Verif.Kasm.Code.Log

/-!
Logs (`asm/core/log.asm`).
-/

namespace Verif.Kasm

variable {P : Prog} {S : List Nat} {w w' : World} {ret a v n : Nat}

/-- A kernel with this code and what it calls. -/
structure Prog.LogsIn (P : Prog) : Prop where
  rlps : P.Rlps
  has : P.Has logCode

/-- The number of logs. -/
abbrev logsLen : Nat := 0x500000027
/-- The length of the data of the logs. -/
abbrev logsDataLen : Nat := 0x500000028
/-- The length of the RLP of the logs. -/
abbrev logsPayload : Nat := 0x500000029

/-- A label of this code. -/
local macro "inlog" : tactic =>
  `(tactic| (simp only [logCode, List.mem_cons, Prod.mk.injEq]; simp only [true_and, true_or, or_true, String.reduceEq, false_and, false_or]; try exact Or.inl rfl))

/-! ### Lengths -/

/-- `asm/rlp/encode.asm:247-265`, expanded: the length of a list or string with its header. -/
theorem run_rlp_len (hP : P.Rlps) {code : List (String × List I)} (hc : P.Has code) {L A F : String} {cont : List I} {H : Prop} {Q : List Nat → World → Prop}
    (h1 : (L, DUP 1 :: STK 1 [.e 0, .t (.lab A)] :: (m_jump (.lab "num_bytes") ++ [])) ∈ code)
    (h2 : (A, m_increment ++ ADD :: cont) ∈ code) (h3 : (F, cont) ∈ code) (hn : n + 33 < 2 ^ 256) (hi : w.inp 0 < 2 ^ 256)
    (h : Returns P H (exec P cont (((rlpHeader 0xc0 n).length + n) :: S) (if 55 < n then w.next else w)) ret Q) :
    Returns P ((55 < n → w.inp 0 = bits n) ∧ H)
      (exec P (m_gt_const (.lit 55) ++ I.push (.lab L) :: JUMPI :: (m_increment ++ [I.push (.lab F), JUMP])) (n :: n :: S) w) ret Q := by
  kexec [m_gt_const, m_increment, m_add_const]
  by_cases hl : 55 < n
  · rw [if_neg (by omega)]
    refine .enter hc h1 ?_
    kexec []
    refine ((run_num_bytes hP (by omega) (by omega) hi).mono (fun hh => hh.1 hl) fun _ _ => id).andThen ?_
    rintro s w' ⟨rfl, rfl⟩
    refine .enter hc h2 ?_
    kexec [m_increment, m_add_const]
    have := beMin_le32 (n := n) (by omega)
    rw [wadd_small (a := 1) (by omega), wadd_small (by omega)]
    rw [if_pos hl, rlpHeader_long hl, List.length_cons] at h
    rw [Nat.add_comm 1]
    exact h.mono And.right fun _ _ => id
  · rw [if_pos (by omega), wadd_small (by omega)]
    refine .enter hc h3 ?_
    rw [if_neg hl, rlpHeader_short (by omega), List.length_singleton] at h
    exact h.mono And.right fun _ _ => id

/-- `asm/core/log.asm:215-238`: the data is copied. -/
theorem run_log_loop (hP : P.Has logCode) : ∀ (n p r : Nat) (w : World), p + n ≤ 2 ^ 32 → (0 < n → Span r n) → (0x1a00000000 + p ≤ r ∨ r + n ≤ 0x1a00000000 + p) →
    Reaches P (exec P b_store_log_data_loop (p :: (p + n) :: r :: ret :: S) w)
      (.goto ret S ((w.copy (0x1a00000000 + p) r n).set logsDataLen (p + n))) := by
  intro n
  induction n with
  | zero =>
    intro p r w _ _ _
    rw [b_store_log_data_loop]
    kexec [Nat.add_zero, ne_eq, not_true, if_false]
    enter hP in logCode
    rw [b_store_log_data_loop_end, exec_pop, exec_store_global (by decide)]
    kexec []
    rw [copy_zero]; exact .refl _
  | succ n ih =>
    intro p r w hp hr' hor
    have hr := hr' (by omega)
    have hlr := hr.lt
    rw [b_store_log_data_loop]
    kexec [m_increment, m_add_const, m_mstore_kernel1, m_build_kernel_address]
    rw [if_pos (by omega), exec_mload hr.2.1, hr.key]
    kexec []
    rw [wadd_small (by omega), exec_mstore_at (by omega)]
    kexec []
    rw [wadd_small (by omega), wadd_small (by omega), set_copy, Nat.add_comm 1 p, Nat.add_comm 1 r]
    enter hP in logCode
    have := ih (p + 1) (r + 1) (w.copy (0x1a00000000 + p) r 1) (by omega) (fun h => hr.later (k := 1) (by omega)) (by omega)
    rw [show 0x1a00000000 + (p + 1) = 0x1a00000000 + p + 1 by omega, copy_copy (by omega), Nat.add_comm 1 n, show p + 1 + n = p + (n + 1) by omega] at this
    exact this

theorem header_same {b c : Nat} : (rlpHeader b n).length = (rlpHeader c n).length := by
  by_cases h : 55 < n
  · rw [rlpHeader_long h, rlpHeader_long h]; rfl
  · rw [rlpHeader_short (by omega), rlpHeader_short (by omega)]; rfl

theorem rlpStr_length {s : List Nat} (h : s.length ≠ 1) : (rlpStr s).length = (rlpHeader 0xc0 s.length).length + s.length := by
  rw [rlpStr, List.length_append, header_same]
  rintro b rfl; exact h rfl

theorem rlpHeader_lt {b : Nat} (h : n < 2 ^ 256) : (rlpHeader b n).length ≤ 33 := by
  by_cases hl : 55 < n
  · rw [rlpHeader_long hl, List.length_cons]
    have := beMin_le32 h
    omega
  · rw [rlpHeader_short (by omega)]; simp

theorem rlpStr_lt {s : List Nat} (h : s.length ≤ 2 ^ 32) : (rlpStr s).length < 2 ^ 33 := by
  by_cases h1 : s.length = 1
  · obtain ⟨b, rfl⟩ := List.length_eq_one_iff.1 h1
    rw [rlpStr_one]; split <;> simp
  · rw [rlpStr_length h1]
    have := rlpHeader_lt (b := 0xc0) (n := s.length) (by omega)
    omega

/-- The bytes of the memory of the running contract. -/
abbrev World.data (w : World) (off n : Nat) : List Nat := cellsAt w (w.ctx * 2 ^ 64 + 0x200000000 + off) n

theorem wadd_three {z o k : Nat} (h : z + 0x200000000 + o + k < 2 ^ 97) : wadd (wadd z 0x200000000) o = z + 0x200000000 + o := by
  rw [wadd_small (a := z) (by omega), wadd_small (by omega)]

theorem exec_main_load {c : List I} {off : Nat} (hc : w.ctx < 2 ^ 32) (ho : off < 2 ^ 32) :
    exec P (m_mload_current (.lit 0x200000000) ++ c) (off :: S) w = exec P c (w.mem (w.ctx * 2 ^ 64 + 0x200000000 + off) :: S) w := by
  have hs : Span (w.ctx * 2 ^ 64 + 0x200000000 + off) 1 := span_at hc (by omega) (by omega) (by omega) (by omega)
  have hl := hs.lt
  kexec [m_mload_current, m_build_address]
  rw [wadd_three hl, exec_mload hs.2.1, hs.key]

/-- `asm/core/log.asm:240-265`: the length of the RLP of the data. -/
theorem run_data_len (hP : P.LogsIn) {off : Nat} (hc : w.ctx < 2 ^ 32) (hn : n < 2 ^ 32) (ho : 0 < n → off + n ≤ 2 ^ 32) (hi : w.inp 0 < 2 ^ 256) :
    Returns P (55 < n → w.inp 0 = bits n) (.goto (P.addr "rlp_data_len") (n :: off :: ret :: S) w) ret fun s w' =>
      s = (rlpStr (w.data off n)).length :: S ∧ w' = if 55 < n then w.next else w := by
  renter hP.has in logCode
  rw [b_rlp_data_len]
  by_cases h0 : n = 0
  · subst h0
    kexec []
    renter hP.has in logCode
    rw [b_data_single_byte]
    kexec [m_pop2, rep]
    exact .ret ⟨rfl, rfl⟩
  by_cases h1 : n = 1
  · subst h1
    have ho := ho (by decide)
    kexec []
    renter hP.has in logCode
    rw [b_one_byte_data]
    rw [exec_dup2, exec_main_load hc (by omega)]
    kexec [m_lt_const, m_pop2, rep]
    have e : w.data off 1 = [w.mem (w.ctx * 2 ^ 64 + 0x200000000 + off)] := cells_one
    rw [e, rlpStr_one]
    by_cases hb : w.mem (w.ctx * 2 ^ 64 + 0x200000000 + off) < 128
    · rw [if_neg (by omega), if_pos hb]
      renter hP.has in logCode
      rw [b_data_single_byte]
      kexec [m_pop2, rep]
      exact .ret ⟨rfl, rfl⟩
    · rw [if_pos (by omega), if_neg hb]
      exact .ret ⟨rfl, rfl⟩
  · kexec []
    rw [if_pos h0, if_pos (by omega)]
    refine (run_rlp_len (H := True) hP.rlps hP.has (A := "log@17.after") (cont := b_log_16_finish) (by inlog) (by inlog) (by inlog) (by omega) hi ?_).mono (fun h => ⟨h, trivial⟩) fun _ _ => id
    rw [b_log_16_finish]
    kexec []
    refine .ret ⟨?_, rfl⟩
    rw [rlpStr_length (by rw [cellsAt_length]; exact h1), cellsAt_length]

/-! ### What a log is -/

/-- The bytes of the topics. -/
def topicsRlp (ts : List Nat) : List Nat := ts.flatMap fun t => rlpStr (beFix 32 t)

/-- The RLP of a log, as it is in receipts: the address, the list of the topics, the data. -/
def logRlp (x : Nat) (ts data : List Nat) : List Nat := rlpList (rlpStr (beFix 20 x) ++ (rlpList (topicsRlp ts) ++ rlpStr data))

/-- What the kernel keeps of a log: the length of the items of its RLP, the address, the topics and the data. -/
def logRecord (x : Nat) (ts data : List Nat) : List Nat :=
  (rlpStr (beFix 20 x) ++ (rlpList (topicsRlp ts) ++ rlpStr data)).length :: x :: ts.length :: (ts ++ data.length :: data)

theorem topicsRlp_length (ts : List Nat) : (topicsRlp ts).length = 33 * ts.length := by
  induction ts with
  | nil => rfl
  | cons t ts ih =>
    rw [topicsRlp, List.flatMap_cons, List.length_append, beFix_str (by decide) (by decide), List.length_cons, beFix_length, ← topicsRlp, ih, List.length_cons]
    omega

/-- The memory once the log is begun, when there were `k` logs with `d` words of data. -/
def World.begun (w : World) (k d x : Nat) (ts : List Nat) : World :=
  ((w.set (0x1900000000 + k) d).set 0x500000027 (k + 1)).put (0x1a00000000 + (1 + d)) (x :: ts.length :: ts)

theorem put_snoc {l : List Nat} {b : Nat} (h : b = a + l.length) : (w.put a l).set b v = w.put a (l ++ [v]) := by
  rw [put_one, put_after h]

/-- Storing a topic. -/
local macro "topic" : tactic => `(tactic| (
  rw [if_pos (by decide), wadd_small (by omega), exec_mstore_at (by omega), put_snoc (by simp only [List.length_cons, List.length_nil, List.length_append]; omega)]
  kexec []
  rw [wadd_small (a := 1) (by omega)]))

/-- `asm/core/log.asm:100-163`: the address and the topics. -/
theorem run_log_topics (hP : P.LogsIn) {x k d : Nat} {ts : List Nat} (ht : ts.length ≤ 4) (hk : w.mem 0x500000027 = k) (hd : w.mem 0x500000028 = d)
    (hk' : k < 2 ^ 32) (hd' : d + 8 ≤ 2 ^ 32) :
    Reaches P (.goto (P.addr "log_n_entry") (x :: ts.length :: (ts ++ S)) w)
      (.goto (P.addr "log_after_topics") ((d + (3 + ts.length)) :: ts.length :: S) (w.begun k d x ts)) := by
  enter hP.has in logCode
  rw [b_log_n_entry]
  rw [exec_load_global (by decide), exec_load_global (by decide), hk, hd]
  kexec [m_mstore_kernel1, m_build_kernel_address, m_increment, m_add_const, m_eq_const]
  rw [wadd_small (by omega), exec_mstore_at (by omega)]
  kexec []
  rw [exec_store_global (by decide), wadd_small (a := 1) (b := k) (by omega), Nat.add_comm 1 k]
  kexec []
  rw [wadd_small (a := 1) (b := d) (by omega), wadd_small (by omega), exec_mstore_at (by omega), put_one (a := 0x1a00000000 + (1 + d))]
  kexec []
  rw [wadd_small (a := 1) (b := 1 + d) (by omega), wadd_small (by omega), exec_mstore_at (by omega), put_snoc (by simp only [List.length_singleton]; omega)]
  kexec []
  rw [wadd_small (a := 1) (b := 1 + (1 + d)) (by omega)]
  match ts, ht with
  | [], _ =>
    kexec [List.length_nil]
    rw [if_neg (by decide)]
    rw [show 1 + (1 + (1 + d)) = d + (3 + 0) by omega]
    exact .refl _
  | [t1], _ =>
    kexec [List.length_nil]
    topic
    rw [if_neg (by decide), show 1 + (1 + (1 + (1 + d))) = d + (3 + (0 + 1)) by omega]
    exact .refl _
  | [t1, t2], _ =>
    kexec [List.length_nil]
    topic
    topic
    rw [if_neg (by decide), show 1 + (1 + (1 + (1 + (1 + d)))) = d + (3 + (0 + 1 + 1)) by omega]
    exact .refl _
  | [t1, t2, t3], _ =>
    kexec [List.length_nil]
    topic
    topic
    topic
    rw [if_neg (by decide), show 1 + (1 + (1 + (1 + (1 + (1 + d))))) = d + (3 + (0 + 1 + 1 + 1)) by omega]
    exact .refl _
  | [t1, t2, t3, t4], _ =>
    kexec [List.length_nil]
    topic
    topic
    topic
    topic
    rw [if_neg (by decide), show 1 + (1 + (1 + (1 + (1 + (1 + (1 + d)))))) = d + (3 + (0 + 1 + 1 + 1 + 1)) by omega]
    exact .refl _

/-- One input of the prover is used if `c`. -/
def World.nextIf (w : World) (c : Prop) [Decidable c] : World := if c then w.next else w

section
variable {c : Prop} [Decidable c]
theorem nextIf_mem : (w.nextIf c).mem = w.mem := by unfold World.nextIf; split <;> rfl
theorem nextIf_ctx : (w.nextIf c).ctx = w.ctx := by unfold World.nextIf; split <;> rfl
theorem nextIf_inp {i : Nat} : (w.nextIf c).inp i = w.inp (i + if c then 1 else 0) := by unfold World.nextIf; split <;> rfl
end

/-- The length of the items of the RLP of a log with `l` topics, when that of the data takes `r` bytes. -/
def logPay (l r : Nat) : Nat := 21 + ((rlpHeader 0xc0 (33 * l)).length + 33 * l + r)

/-- The memory when the lengths are known. -/
def World.sized (w : World) (d l n r : Nat) : World := (((w.nextIf (55 < n)).nextIf (55 < 33 * l)).set (0x1a00000000 + d) (logPay l r)).nextIf (55 < logPay l r)

/-- The memory when the log is complete. -/
def World.finished (w : World) (d q l n r b : Nat) : World :=
  (((((pushEntry (w.sized d l n r) [10, d, q]).set 0x500000029 ((rlpHeader 0xc0 (logPay l r)).length + logPay l r + q)).set
    (0x1a00000000 + (d + (3 + l))) n).copy (0x1a00000000 + (d + (4 + l))) b n).set 0x500000028 (d + (4 + l) + n))

/-- `asm/core/log.asm:165-238`: the lengths, the journal and the data. -/
theorem run_log_rest (hP : P.LogsIn) {off d q l : Nat} (hl : l ≤ 4) (hd : w.mem 0x500000028 = d) (hq : w.mem 0x500000029 = q) (hq' : q < 2 ^ 64)
    (hd' : d + (4 + l) + n ≤ 2 ^ 32) (hc : w.ctx < 2 ^ 32) (ho : 0 < n → off + n ≤ 2 ^ 32) (ho' : off < 2 ^ 256) (hi : ∀ j < 3, w.inp j < 2 ^ 256)
    (hj : w.mem jourLen < 2 ^ 32) (hjd : w.mem jdatLen + 3 ≤ 2 ^ 32) :
    Returns P ((55 < n → w.inp 0 = bits n) ∧ (55 < 33 * l → (w.nextIf (55 < n)).inp 0 = bits (33 * l)) ∧
        (55 < logPay l (rlpStr (w.data off n)).length → ((w.nextIf (55 < n)).nextIf (55 < 33 * l)).inp 0 = bits (logPay l (rlpStr (w.data off n)).length)))
      (.goto (P.addr "log_after_topics") ((d + (3 + l)) :: l :: n :: off :: ret :: S) w) ret fun s w' =>
      s = S ∧ w' = w.finished d q l n (rlpStr (w.data off n)).length (w.ctx * 2 ^ 64 + 0x200000000 + off) := by
  renter hP.has in logCode
  rw [b_log_after_topics]
  kexec []
  refine ((run_data_len hP hc (by omega) ho (hi 0 (by decide))).mono And.left fun _ _ => id).andThen ?_
  rintro s wA ⟨rfl, hA⟩
  replace hA : wA = w.nextIf (55 < n) := hA
  subst hA
  generalize hr : (rlpStr (w.data off n)).length = r
  have hr' : r < 2 ^ 33 := by rw [← hr]; exact rlpStr_lt (by rw [cellsAt_length]; omega)
  renter hP.has in logCode
  rw [b_log_11_after]
  kexec [m_mul_const]
  rw [wmul_small (by omega)]
  refine (run_rlp_len hP.rlps hP.has (A := "log@13.after") (cont := b_log_12_finish) (by inlog) (by inlog) (by inlog) (by omega)
    (by rw [nextIf_inp]; exact hi _ (by split <;> decide)) ?_).mono And.right fun _ _ => id
  change Returns P _ (exec P b_log_12_finish _ ((w.nextIf (55 < n)).nextIf (55 < 33 * l))) _ _
  rw [b_log_12_finish]
  kexec [m_add_const]
  rw [exec_load_global (by decide)]
  kexec [m_mstore_kernel1, m_build_kernel_address, nextIf_mem, hd]
  have hh := rlpHeader_lt (b := 0xc0) (n := 33 * l) (by omega)
  have hpay : logPay l r < 2 ^ 34 := by simp only [logPay]; omega
  rw [wadd_small (a := (rlpHeader 0xc0 (33 * l)).length + 33 * l) (by omega), wadd_small (a := 21) (by omega), wadd_small (by omega), exec_mstore_at (by omega)]
  rw [show 21 + ((rlpHeader 0xc0 (33 * l)).length + 33 * l + r) = logPay l r from rfl]
  kexec []
  refine (run_rlp_len (H := True) hP.rlps hP.has (A := "log@15.after") (cont := b_log_14_finish) (by inlog) (by inlog) (by inlog) (by omega)
    (by show ((w.nextIf (55 < n)).nextIf (55 < 33 * l)).inp 0 < _
        rw [nextIf_inp, nextIf_inp]; exact hi _ (by split <;> split <;> decide)) ?_).mono (fun h => ⟨h, trivial⟩) fun _ _ => id
  change Returns P _ (exec P b_log_14_finish _ (w.sized d l n r)) _ _
  have hm : ∀ b, b ≠ 0x1a00000000 + d → (w.sized d l n r).mem b = w.mem b := fun b hb => by
    rw [World.sized, nextIf_mem, set_ne hb, nextIf_mem, nextIf_mem]
  rw [b_log_14_finish, exec_load_global (by decide), hm _ (by omega), hq]
  kexec []
  rw [exec_load_global (by decide), hm _ (by omega), hd, m_journal_add_log, List.append_nil,
    exec_journal_2 (by rw [hm _ (by simp only [jdatLen]; omega)]; exact hjd) (by rw [hm _ (by simp only [jourLen]; omega)]; exact hj)]
  kexec []
  have hhp := rlpHeader_lt (b := 0xc0) (n := logPay l r) (by omega)
  have hctx : (pushEntry (w.sized d l n r) [10, d, q]).ctx = w.ctx := by
    show (w.sized d l n r).ctx = _
    rw [World.sized, nextIf_ctx]
    show ((w.nextIf (55 < n)).nextIf (55 < 33 * l)).ctx = _
    rw [nextIf_ctx, nextIf_ctx]
  rw [exec_store_global (by decide), wadd_small (by omega), Nat.add_comm q]
  kexec [m_mstore_kernel1, m_build_kernel_address, m_increment, m_add_const, m_build_address]
  rw [wadd_small (a := 0x1a00000000) (by omega), exec_mstore_at (by omega)]
  kexec []
  rw [wadd_small (a := 1) (by omega), wadd_small (a := n) (by omega), show 1 + (d + (3 + l)) = d + (4 + l) by omega, Nat.add_comm n]
  rw [show ((((pushEntry (w.sized d l n r) [10, d, q]).set 0x500000029 ((rlpHeader 0xc0 (logPay l r)).length + logPay l r + q)).set
    (0x1a00000000 + (d + (3 + l))) n).ctx) = w.ctx from hctx]
  have hz : 0 < n → Span (w.ctx * 2 ^ 64 + 0x200000000 + off) n ∧ wadd (wadd (w.ctx * 2 ^ 64) 0x200000000) off = w.ctx * 2 ^ 64 + 0x200000000 + off ∧
      (0x1a00000000 + (d + (4 + l)) ≤ w.ctx * 2 ^ 64 + 0x200000000 + off ∨ w.ctx * 2 ^ 64 + 0x200000000 + off + n ≤ 0x1a00000000 + (d + (4 + l))) := fun h => by
    have ho := ho h
    have hs : Span (w.ctx * 2 ^ 64 + 0x200000000 + off) n := span_at hc (by decide) (by decide) (by omega) ho
    refine ⟨hs, wadd_three hs.lt, ?_⟩
    have hzz : w.ctx * 2 ^ 64 = 0 ∨ 2 ^ 64 ≤ w.ctx * 2 ^ 64 := by omega
    generalize w.ctx * 2 ^ 64 = z at hzz
    omega
  by_cases h0 : n = 0
  · subst h0
    refine .of (run_log_loop hP.has 0 _ _ _ (by omega) (fun h => absurd h (by decide)) (by omega)) (.ret ⟨rfl, ?_⟩)
    rw [World.finished, copy_zero, copy_zero]
  · obtain ⟨z1, z2, z3⟩ := hz (by omega)
    rw [z2]
    exact .of (run_log_loop hP.has n _ _ _ (by omega) (fun _ => z1) z3) (.ret ⟨rfl, rfl⟩)

/-! ### The claim -/

theorem logPay_eq {x : Nat} {ts data : List Nat} :
    (rlpStr (beFix 20 x) ++ (rlpList (topicsRlp ts) ++ rlpStr data)).length = logPay ts.length (rlpStr data).length := by
  rw [List.length_append, List.length_append, beFix_str (by decide) (by decide), List.length_cons, beFix_length, rlpList, List.length_append, topicsRlp_length, logPay]

theorem logRlp_length {x : Nat} {ts data : List Nat} :
    (logRlp x ts data).length = (rlpHeader 0xc0 (logPay ts.length (rlpStr data).length)).length + logPay ts.length (rlpStr data).length := by
  rw [logRlp, rlpList, List.length_append, logPay_eq]

theorem logRecord_length {x : Nat} {ts data : List Nat} : (logRecord x ts data).length = 4 + ts.length + data.length := by
  simp only [logRecord, List.length_cons, List.length_append]; omega

/-- A log of `x` with topics `ts` and data `data` has been added, and nothing else has changed but the journal, which says how to take it back. -/
structure LogAdded (w w' : World) (x : Nat) (ts data : List Nat) : Prop where
  count : w'.mem logsLen = w.mem logsLen + 1
  place : w'.mem (0x1900000000 + w.mem logsLen) = w.mem logsDataLen
  record : HasBytes w' (0x1a00000000 + w.mem logsDataLen) (logRecord x ts data)
  next : w'.mem logsDataLen = w.mem logsDataLen + (logRecord x ts data).length
  payload : w'.mem logsPayload = w.mem logsPayload + (logRlp x ts data).length
  journal : Logged w w' [10, w.mem logsDataLen, w.mem logsPayload]
  ctx : w'.ctx = w.ctx
  else_ : ∀ b, b ≠ logsLen → b ≠ logsDataLen → b ≠ logsPayload → b ≠ 0x1900000000 + w.mem logsLen →
    b < 0x1a00000000 + w.mem logsDataLen ∨ 0x1a00000000 + w.mem logsDataLen + (logRecord x ts data).length ≤ b → ¬ JourCell w 3 b → w'.mem b = w.mem b

theorem words_put {l : List Nat} (hw : Words w) (hl : ∀ b ∈ l, b < 2 ^ 256) : Words (w.put a l) := by
  intro b
  simp only [World.put]
  split
  · rename_i h
    rw [List.getD_eq_getElem?_getD, List.getElem?_eq_getElem (by omega), Option.getD_some]
    exact hl _ (List.getElem_mem _)
  · exact hw b

theorem begun_mem {k d x b : Nat} {ts : List Nat} (h1 : b ≠ 0x1900000000 + k) (h2 : b ≠ 0x500000027)
    (h3 : b < 0x1a00000000 + (1 + d) ∨ 0x1a00000000 + (1 + d) + (2 + ts.length) ≤ b) : (w.begun k d x ts).mem b = w.mem b := by
  simp only [World.begun, World.put, List.length_cons]
  rw [if_neg (by omega), set_ne h2, set_ne h1]

theorem begun_here {k d x i : Nat} {ts : List Nat} (hi : i < ts.length + 2) : (w.begun k d x ts).mem (0x1a00000000 + (1 + d) + i) = (x :: ts.length :: ts).getD i 0 :=
  (written_put (w := (w.set (0x1900000000 + k) d).set 0x500000027 (k + 1)) rfl rfl).here i (by simp only [List.length_cons]; omega)

theorem finished_added {x k d q r b : Nat} {ts data : List Nat} (hw : Words w) (hx : x < 2 ^ 256) (hts : ∀ t ∈ ts, t < 2 ^ 256) (ht : ts.length ≤ 4)
    (hk : w.mem 0x500000027 = k) (hd : w.mem 0x500000028 = d) (hq : w.mem 0x500000029 = q) (hk' : k < 2 ^ 32) (hd' : d + (4 + ts.length) + data.length ≤ 2 ^ 32)
    (hj : w.mem jourLen < 2 ^ 32) (hjd : w.mem jdatLen + 3 ≤ 2 ^ 32) (hr : (rlpStr data).length = r)
    (hb : ∀ i < data.length, (b + i < 0x500000000 ∨ 2 ^ 64 ≤ b + i) ∧ w.mem (b + i) = data.getD i 0) :
    LogAdded w ((w.begun k d x ts).finished d q ts.length data.length r b) x ts data := by
  have hr' : r < 2 ^ 33 := by rw [← hr]; exact rlpStr_lt (by omega)
  have hh := rlpHeader_lt (b := 0xc0) (n := 33 * ts.length) (by omega)
  have hpay : logPay ts.length r < 2 ^ 34 := by simp only [logPay]; omega
  have hwb : Words (w.begun k d x ts) := words_put ((hw.set (by omega)).set (by omega)) fun v hv => by
    rcases List.mem_cons.1 hv with rfl | hv
    · exact hx
    · rcases List.mem_cons.1 hv with rfl | hv
      · omega
      · exact hts v hv
  have hws : Words ((w.begun k d x ts).sized d ts.length data.length r) := by
    intro c
    rw [World.sized, nextIf_mem]
    refine Words.set (fun c => ?_) (by omega) c
    rw [nextIf_mem, nextIf_mem]; exact hwb c
  have hsm : ∀ b, b ≠ 0x1a00000000 + d → ((w.begun k d x ts).sized d ts.length data.length r).mem b = (w.begun k d x ts).mem b := fun b hb => by
    rw [World.sized, nextIf_mem, set_ne hb, nextIf_mem, nextIf_mem]
  have hss : ((w.begun k d x ts).sized d ts.length data.length r).mem (0x1a00000000 + d) = logPay ts.length r := by
    rw [World.sized, nextIf_mem, set_same]
  have hjl : ((w.begun k d x ts).sized d ts.length data.length r).mem jourLen = w.mem jourLen := by
    rw [hsm _ (by simp only [jourLen]; omega), begun_mem (by simp only [jourLen]; omega) (by decide) (by simp only [jourLen]; omega)]
  have hjdl : ((w.begun k d x ts).sized d ts.length data.length r).mem jdatLen = w.mem jdatLen := by
    rw [hsm _ (by simp only [jdatLen]; omega), begun_mem (by simp only [jdatLen]; omega) (by decide) (by simp only [jdatLen]; omega)]
  have hq' : q < 2 ^ 256 := by rw [← hq]; exact hw _
  obtain ⟨L, K, -⟩ := pushEntry_spec (l := [10, d, q]) hws (by rw [hjdl]; exact hjd) (by rw [hjl]; exact hj) (by
    intro v hv
    simp only [List.mem_cons, List.not_mem_nil, or_false] at hv
    omega)
  have K := K.2.2
  simp only [JourCell, hjl, hjdl] at K
  simp only [Logged, hjl, hjdl] at L
  generalize hE : pushEntry ((w.begun k d x ts).sized d ts.length data.length r) [10, d, q] = E at L K
  generalize hF : (w.begun k d x ts).finished d q ts.length data.length r b = F
  rw [World.finished, hE] at hF
  have f28 : F.mem 0x500000028 = d + (4 + ts.length) + data.length := by rw [← hF, set_same]
  have fdata : ∀ i, i < data.length → F.mem (0x1a00000000 + (d + (4 + ts.length)) + i) = E.mem (b + i) := fun i hi => by
    obtain ⟨g1, -⟩ := hb i hi
    rw [← hF, set_ne (by omega), copy_mem, if_pos (by omega), Nat.add_sub_cancel_left, set_ne (by omega), set_ne (by omega)]
  have fn : F.mem (0x1a00000000 + (d + (3 + ts.length))) = data.length := by
    rw [← hF, set_ne (by omega), copy_mem, if_neg (by omega), set_same]
  have f29 : F.mem 0x500000029 = (rlpHeader 0xc0 (logPay ts.length r)).length + logPay ts.length r + q := by
    rw [← hF, set_ne (by decide), copy_mem, if_neg (by omega), set_ne (by omega), set_same]
  have felse : ∀ c, c ≠ 0x500000028 → c ≠ 0x500000029 → c < 0x1a00000000 + (d + (3 + ts.length)) ∨ 0x1a00000000 + (d + (4 + ts.length)) + data.length ≤ c →
      F.mem c = E.mem c := fun c h1 h2 h3 => by
    rw [← hF, set_ne h1, copy_mem, if_neg (by omega), set_ne (by omega), set_ne h2]
  have hlen : (logRecord x ts data).length = 4 + ts.length + data.length := logRecord_length
  have hEs : ∀ c, c < 0x1b00000000 ∨ 2 ^ 64 ≤ c → c ≠ jourLen → c ≠ jdatLen → E.mem c = ((w.begun k d x ts).sized d ts.length data.length r).mem c := fun c h1 h2 h3 =>
    K c (by simp only [jourLen, jdatLen, jourBase, jdatBase, List.length_cons, List.length_nil] at *; omega)
  have hctx : F.ctx = w.ctx := by
    rw [← hF]
    show E.ctx = _
    rw [← hE]
    show ((w.begun k d x ts).sized d ts.length data.length r).ctx = _
    rw [World.sized, nextIf_ctx]
    show (((w.begun k d x ts).nextIf (55 < data.length)).nextIf (55 < 33 * ts.length)).ctx = _
    rw [nextIf_ctx, nextIf_ctx]; rfl
  obtain ⟨l1, l2, l3, l4⟩ := L
  refine ⟨?_, ?_, ?_, ?_, ?_, ⟨?_, ?_, ?_, ?_⟩, hctx, ?_⟩
  · rw [felse _ (by decide) (by decide) (by simp only [logsLen]; omega), hEs _ (by simp only [logsLen]; omega) (by decide) (by decide), hsm _ (by simp only [logsLen]; omega)]
    simp only [World.begun, World.put]
    rw [if_neg (by simp only [logsLen]; omega), set_same, ← hk]
  · rw [hk, felse _ (by omega) (by omega) (by omega), hEs _ (by omega) (by simp only [jourLen]; omega) (by simp only [jdatLen]; omega), hsm _ (by omega)]
    simp only [World.begun, World.put]
    rw [if_neg (by omega), set_ne (by omega), set_same]; exact hd.symm
  · rw [show w.mem logsDataLen = d from hd, show logRecord x ts data = [logPay ts.length r] ++ ((x :: ts.length :: ts) ++ ([data.length] ++ data)) by
      rw [logRecord, logPay_eq, hr]; simp]
    refine HasBytes.app (fun i hi => ?_) (HasBytes.app (fun i hi => ?_) (HasBytes.app (fun i hi => ?_) fun i hi => ?_))
    · have : i = 0 := by simpa using hi
      subst this
      rw [Nat.add_zero, felse _ (by omega) (by omega) (by omega), hEs _ (by omega) (by simp only [jourLen]; omega) (by simp only [jdatLen]; omega), hss]; rfl
    · simp only [List.length_cons] at hi
      rw [List.length_singleton, ← begun_here (w := w) (k := k) (d := d) (x := x) (ts := ts) (i := i) (by omega), show 0x1a00000000 + d + 1 + i = 0x1a00000000 + (1 + d) + i by omega]
      rw [felse _ (by omega) (by omega) (by omega), hEs _ (by omega) (by simp only [jourLen]; omega) (by simp only [jdatLen]; omega), hsm _ (by omega)]
    · have : i = 0 := by simpa using hi
      subst this
      rw [show 0x1a00000000 + d + [logPay ts.length r].length + (x :: ts.length :: ts).length + 0 = 0x1a00000000 + (d + (3 + ts.length)) by
        simp only [List.length_cons, List.length_nil]; omega, fn]; rfl
    · rw [show 0x1a00000000 + d + [logPay ts.length r].length + (x :: ts.length :: ts).length + [data.length].length + i = 0x1a00000000 + (d + (4 + ts.length)) + i by
        simp only [List.length_cons, List.length_nil]; omega, fdata i hi]
      obtain ⟨g1, g2⟩ := hb i hi
      rw [hEs _ (by omega) (by simp only [jourLen]; omega) (by simp only [jdatLen]; omega), hsm _ (by omega), begun_mem (by omega) (by omega) (by omega), g2]
  · rw [show w.mem logsDataLen = d from hd, hlen, show F.mem logsDataLen = _ from f28]; omega
  · rw [show w.mem logsPayload = q from hq, show F.mem logsPayload = _ from f29, logRlp_length, hr, Nat.add_comm q]
  · rw [felse _ (by decide) (by decide) (by simp only [jourLen]; omega), l1]
  · rw [felse _ (by decide) (by decide) (by simp only [jdatLen]; omega), l2]; rfl
  · rw [felse _ (by simp only [jourBase]; omega) (by simp only [jourBase]; omega) (by simp only [jourBase]; omega), l3]
  · intro i hi
    rw [felse _ (by simp only [jdatBase]; omega) (by simp only [jdatBase]; omega) (by simp only [jdatBase]; omega), l4 i hi,
      show w.mem logsDataLen = d from hd, show w.mem logsPayload = q from hq]
  · intro c h1 h2 h3 h4 h5 h6
    rw [show w.mem logsDataLen = d from hd, hlen] at h5
    rw [show w.mem logsLen = k from hk] at h4
    rw [felse c h2 h3 (by omega), K c h6, hsm c (by omega), begun_mem h4 h1 (by omega)]

/-- What the prover must supply for a log with `n` bytes of data, the lengths of which are `r` and `p`: the numbers of bits of the lengths that do not fit in a header of one byte. -/
def LogHints (w : World) (l n p : Nat) : Prop :=
  (55 < n → w.inp 0 = bits n) ∧ (55 < 33 * l → w.inp (if 55 < n then 1 else 0) = bits (33 * l)) ∧
    (55 < p → w.inp ((if 55 < 33 * l then 1 else 0) + if 55 < n then 1 else 0) = bits p)

/-- Adding a log: whatever the prover supplies, if the kernel goes on then the log is there as it was given. -/
theorem C135_log (hP : P.LogsIn) {x off : Nat} {ts : List Nat} (hw : Words w) (hx : x < 2 ^ 256) (hts : ∀ t ∈ ts, t < 2 ^ 256) (ht : ts.length ≤ 4)
    (hc : w.ctx < 2 ^ 32) (ho : 0 < n → off + n ≤ 2 ^ 32) (ho' : off < 2 ^ 256) (hi : ∀ j < 3, w.inp j < 2 ^ 256)
    (hk : w.mem logsLen < 2 ^ 32) (hd : w.mem logsDataLen + (8 + n) ≤ 2 ^ 32) (hq : w.mem logsPayload < 2 ^ 64)
    (hj : w.mem jourLen < 2 ^ 32) (hjd : w.mem jdatLen + 3 ≤ 2 ^ 32) :
    Returns P (LogHints w ts.length n (rlpStr (beFix 20 x) ++ (rlpList (topicsRlp ts) ++ rlpStr (w.data off n))).length)
      (.goto (P.addr "log_n_entry") (x :: ts.length :: (ts ++ n :: off :: ret :: S)) w) ret fun s w' =>
      s = S ∧ LogAdded w w' x ts (w.data off n) := by
  refine .of (run_log_topics hP ht rfl rfl hk (by simp only [logsDataLen] at hd; omega)) ?_
  have hm : ∀ b, b < 0x500000000 ∨ 2 ^ 64 ≤ b → (w.begun (w.mem 0x500000027) (w.mem 0x500000028) x ts).mem b = w.mem b := fun b hb =>
    begun_mem (by simp only [logsLen] at hk; omega) (by omega) (by simp only [logsDataLen] at hd; omega)
  have hm' : ∀ b, b = 0x500000028 ∨ b = 0x500000029 ∨ b = jourLen ∨ b = jdatLen → (w.begun (w.mem 0x500000027) (w.mem 0x500000028) x ts).mem b = w.mem b := fun b hb =>
    begun_mem (by simp only [jourLen, jdatLen] at hb; omega) (by simp only [jourLen, jdatLen] at hb; omega) (by simp only [jourLen, jdatLen] at hb; omega)
  have hreg : ∀ i < n, w.ctx * 2 ^ 64 + 0x200000000 + off + i < 0x500000000 ∨ 2 ^ 64 ≤ w.ctx * 2 ^ 64 + 0x200000000 + off + i := fun i hi => by
    have := ho (by omega)
    have hzz : w.ctx * 2 ^ 64 = 0 ∨ 2 ^ 64 ≤ w.ctx * 2 ^ 64 := by omega
    generalize w.ctx * 2 ^ 64 = z at hzz
    omega
  have hdata : (w.begun (w.mem 0x500000027) (w.mem 0x500000028) x ts).data off n = w.data off n :=
    List.map_congr_left fun i hi => hm _ (hreg i (List.mem_range.1 hi))
  have hrest := run_log_rest (ret := ret) (S := S) (w := w.begun (w.mem 0x500000027) (w.mem 0x500000028) x ts) (n := n) (off := off) (q := w.mem 0x500000029) hP ht
    (hm' _ (.inl rfl)) (hm' _ (.inr (.inl rfl))) hq (by simp only [logsDataLen] at hd; omega) hc ho ho' hi (by rw [hm' _ (by simp)]; exact hj) (by rw [hm' _ (by simp)]; exact hjd)
  rw [hdata] at hrest
  refine hrest.mono ?_ ?_
  · rw [logPay_eq]
    rintro ⟨h1, h2, h3⟩
    refine ⟨h1, fun h => ?_, fun h => ?_⟩
    · rw [nextIf_inp, Nat.zero_add]; exact h2 h
    · rw [nextIf_inp, nextIf_inp, Nat.zero_add]; exact h3 h
  · rintro s w' ⟨rfl, rfl⟩
    refine ⟨rfl, ?_⟩
    have hl : (w.data off n).length = n := cellsAt_length
    have := finished_added (w := w) (x := x) (ts := ts) (data := w.data off n) (b := w.ctx * 2 ^ 64 + 0x200000000 + off) hw hx hts ht rfl rfl rfl hk
      (by rw [hl]; simp only [logsDataLen] at hd; omega) hj hjd rfl (fun i hi => ⟨hreg i (by omega), ?_⟩)
    · rw [hl] at this; exact this
    · rw [hl] at hi
      rw [World.data, List.getD_eq_getElem?_getD, cellsAt, List.getElem?_map, List.getElem?_range hi]; rfl

/-- A log: the address, the topics, the data. -/
structure LogItem where
  addr : Nat
  topics : List Nat
  data : List Nat

/-- What the kernel keeps of these logs. -/
def logsRecords (ls : List LogItem) : List Nat := ls.flatMap fun l => logRecord l.addr l.topics l.data

/-- The items of the RLP of the list of these logs, as in the receipt. -/
def logsRlp (ls : List LogItem) : List Nat := ls.flatMap fun l => logRlp l.addr l.topics l.data

/-- The logs of the transaction are `ls`. -/
structure LogsAre (w : World) (ls : List LogItem) : Prop where
  count : w.mem logsLen = ls.length
  places : ∀ i < ls.length, w.mem (0x1900000000 + i) = (logsRecords (ls.take i)).length
  records : HasBytes w 0x1a00000000 (logsRecords ls)
  next : w.mem logsDataLen = (logsRecords ls).length
  payload : w.mem logsPayload = (logsRlp ls).length

/-- A transaction begins without logs. -/
theorem logsAre_nil (h1 : w.mem logsLen = 0) (h2 : w.mem logsDataLen = 0) (h3 : w.mem logsPayload = 0) : LogsAre w [] :=
  ⟨h1, fun _ h => absurd h (Nat.not_lt_zero _), fun _ h => absurd h (Nat.not_lt_zero _), h2, h3⟩

/-- A log that is added comes after the others, which stay as they are. -/
theorem C135_order {w' : World} {ls : List LogItem} {l : LogItem} (h : LogsAre w ls) (hk : ls.length < 2 ^ 32) (hd : (logsRecords ls).length ≤ 2 ^ 32)
    (ha : LogAdded w w' l.addr l.topics l.data) : LogsAre w' (ls ++ [l]) := by
  obtain ⟨c, p, r, n, q⟩ := h
  obtain ⟨ac, ap, ar, an, aq, -, -, ae⟩ := ha
  rw [c] at ac ap ae
  rw [n] at ap ar an ae
  rw [q] at aq
  have hrec : logsRecords (ls ++ [l]) = logsRecords ls ++ logRecord l.addr l.topics l.data := by simp [logsRecords]
  have hj : ∀ b, b < 0x1b00000000 → b ≠ jourLen → b ≠ jdatLen → ¬ JourCell w 3 b := fun b h1 h2 h3 => by
    simp only [JourCell, jourBase, jdatBase]; omega
  refine ⟨?_, fun i hi => ?_, ?_, ?_, ?_⟩
  · rw [ac, List.length_append]; rfl
  · rw [List.length_append, List.length_singleton] at hi
    by_cases he : i = ls.length
    · subst he
      rw [ap, List.take_left]
    · rw [ae _ (by simp only [logsLen]; omega) (by simp only [logsDataLen]; omega) (by simp only [logsPayload]; omega) (by omega) (.inl (by omega))
        (hj _ (by omega) (by simp only [jourLen]; omega) (by simp only [jdatLen]; omega)), p i (by omega), List.take_append_of_le_length (by omega)]
  · rw [hrec]
    refine HasBytes.app (fun i hi => ?_) ar
    rw [ae _ (by simp only [logsLen]; omega) (by simp only [logsDataLen]; omega) (by simp only [logsPayload]; omega) (by omega) (.inl (by omega))
      (hj _ (by omega) (by simp only [jourLen]; omega) (by simp only [jdatLen]; omega)), r i hi]
  · rw [an, hrec, List.length_append]
  · rw [aq, show logsRlp (ls ++ [l]) = logsRlp ls ++ logRlp l.addr l.topics l.data by simp [logsRlp], List.length_append]

/-- Logs that are kept the same way are the same logs. -/
theorem C135_binding {ls ls' : List LogItem} (h : LogsAre w ls) (h' : LogsAre w ls') : ls = ls' := by
  have hl : ls.length = ls'.length := by rw [← h.count, ← h'.count]
  have hr : logsRecords ls = logsRecords ls' := by
    have e : (logsRecords ls).length = (logsRecords ls').length := by rw [← h.next, ← h'.next]
    refine List.ext_getElem e fun i h1 h2 => ?_
    have a := h.records i h1
    have b := h'.records i h2
    rw [a, List.getD_eq_getElem?_getD, List.getD_eq_getElem?_getD, List.getElem?_eq_getElem h1, List.getElem?_eq_getElem h2] at b
    simpa using b
  clear h h'
  induction ls generalizing ls' with
  | nil => exact (List.eq_nil_of_length_eq_zero hl.symm).symm
  | cons l ls ih =>
    match ls', hl, hr with
    | l' :: ls', hl, hr =>
      obtain ⟨x, ts, dt⟩ := l
      obtain ⟨x', ts', dt'⟩ := l'
      simp only [logsRecords, List.flatMap_cons, logRecord, List.cons_append, List.append_assoc, List.cons.injEq] at hr
      obtain ⟨-, rfl, ht, hr⟩ := hr
      obtain ⟨rfl, hr2⟩ := List.append_inj hr ht
      obtain ⟨hn, hr3⟩ := List.cons.inj hr2
      obtain ⟨rfl, hr4⟩ := List.append_inj hr3 hn
      rw [ih (by simpa using hl) hr4]

/-- Taking back the last log with what the journal says of it leaves the logs that were there before. -/
theorem C135_undone (hR : P.Reverts) {w0 : World} {ls : List LogItem} {l : LogItem} (h : LogsAre w0 ls) (hk : ls.length < 2 ^ 32) (hd : (logsRecords ls).length ≤ 2 ^ 32)
    (hj : w0.mem jdatLen + 3 ≤ 2 ^ 32) (ha : LogAdded w0 w l.addr l.topics l.data) :
    Returns P False (.goto (P.addr "revert_log") (10 :: w0.mem jdatLen :: ret :: S) w) ret fun s w' => s = S ∧ LogsAre w' ls := by
  have hn := C135_order h hk hd ha
  have hJ := ha.journal.2.2.2
  rw [h.next, h.payload] at hJ
  generalize hd1 : (logsRecords ls).length = d at *
  generalize hp1 : (logsRlp ls).length = p at *
  have hr' : wsub (w.mem 0x500000027) 1 = ls.length := by
    rw [show w.mem 0x500000027 = _ from hn.count, List.length_append, List.length_singleton]; simp only [wsub]; omega
  have he' : EntryAt (w.set 0x500000027 ls.length) (w0.mem jdatLen) [10, d, p] := ⟨hj, fun j hj => by rw [set_ne (by simp only [jdatBase]; omega)]; exact hJ j hj⟩
  renter hR.undo in undoCode
  rw [b_revert_log]
  have e1 := fun c s => exec_journal_load_2 (P := P) (c := c) (s := s) he'
  generalize m_journal_load_2 = t at *
  kexec []
  rw [exec_load_global (by omega)]
  kexec []
  rw [hr', exec_store_global (by omega), e1, exec_store_global (by omega), exec_store_global (by omega)]
  kexec []
  refine .ret ⟨rfl, ?_, fun i hi => ?_, fun i hi => ?_, ?_, ?_⟩
  · rw [set_ne (by decide), set_ne (by decide), set_same]
  · rw [set_ne (by omega), set_ne (by omega), set_ne (by omega), hn.places i (by rw [List.length_append]; omega), List.take_append_of_le_length (by omega)]
  · rw [set_ne (by omega), set_ne (by omega), set_ne (by omega)]
    have := hn.records
    rw [show logsRecords (ls ++ [l]) = logsRecords ls ++ logRecord l.addr l.topics l.data by simp [logsRecords]] at this
    exact this.left i hi
  · rw [set_ne (by decide), set_same, hd1]
  · rw [set_same, hp1]

def logsCode : List (String × List I) := logCode ++ rlpCode ++ copyCode ++ [("panic", b_panic)]

def logsProg : Prog := tableProg logsCode List.sum

theorem logsProg_has : logsProg.Has logsCode := tableProg_has _ _ (by decide +kernel) (by decide +kernel) (by decide +kernel)

theorem logsProg_ok : logsProg.LogsIn :=
  ⟨⟨tableProg_copies _ _ (by decide +kernel) (by decide +kernel) (by decide +kernel) (by simp +contextual [logsCode]),
    logsProg_has.mono (by simp +contextual [logsCode]), logsProg_has.mono (by simp +contextual [logsCode])⟩,
    logsProg_has.mono (by simp +contextual [logsCode])⟩

/-- The account 7 adds a log with the topics 1 and 2 and three bytes of its memory; it is then the only log. -/
example : ∃ w', Reaches logsProg (.goto (logsProg.addr "log_n_entry") [7, 2, 1, 2, 3, 40, 77] ⟨fun _ => 0, 1, fun _ => 7⟩) (.goto 77 [] w') ∧
    LogsAre w' [⟨7, [1, 2], [0, 0, 0]⟩] := by
  obtain ⟨s, w', r, rfl, h⟩ := (C135_log (w := ⟨fun _ => 0, 1, fun _ => 7⟩) (n := 3) (ret := 77) (S := []) logsProg_ok (x := 7) (off := 40) (ts := [1, 2])
    (fun _ => show 0 < 2 ^ 256 by decide) (by decide) (by decide) (by decide) (show 1 < 2 ^ 32 by decide) (by decide) (by decide) (fun _ _ => show 7 < 2 ^ 256 by decide)
    (show 0 < 2 ^ 32 by decide) (show 0 + (8 + 3) ≤ 2 ^ 32 by decide) (show 0 < 2 ^ 64 by decide) (show 0 < 2 ^ 32 by decide)
    (show 0 + 3 ≤ 2 ^ 32 by decide)).sure (by unfold LogHints; decide +kernel)
  exact ⟨w', r, C135_order (l := ⟨7, [1, 2], [0, 0, 0]⟩) (logsAre_nil rfl rfl rfl) (by decide) (by decide) h⟩

/-- Its RLP has 95 bytes. -/
example : (logRlp 7 [1, 2] [0, 0, 0]).length = 95 ∧ (logRlp 7 [1, 2] [0, 0, 0]).take 4 = [0xf8, 93, 0x94, 0] := by decide +kernel

end Verif.Kasm
