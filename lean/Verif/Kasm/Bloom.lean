import Verif.Kasm.Logs
import Verif.Kasm.Code.Bloom

/-! # The Bloom filter of a transaction

`asm/bloom_filter.asm`.  `logs_bloom` goes over the logs and sets three bits of the filter for the address of each
and for each of its topics. -/

namespace Verif.Kasm

variable {P : Prog} {w : World} {S : List Nat} {n k ret : Nat}

/-- The kernel has the code for Bloom filters. -/
structure Prog.Blooms (P : Prog) : Prop where
  copies : P.Copies
  has : P.Has bloomCode

/-- The bits a hash sets: the low eleven bits of its first three pairs of bytes. -/
def bloomIdx (h i : Nat) : Nat := h / 2 ^ (240 - 16 * i) % 2048

/-- Bit `m` of the filter, a number of 256 bytes with the most significant first. -/
def World.bloomBit (w : World) (m : Nat) : Bool := (w.mem (0x1700000000 + (255 - m / 8))).testBit (m % 8)

/-- What is hashed for the logs: the addresses as twenty bytes, the topics as thirty-two. -/
def bloomEntries (ls : List LogItem) : List (List Nat) := ls.flatMap fun l => beFix 20 l.addr :: l.topics.map (beFix 32)

/-- The cells the computation may write: the filter and the bytes to hash. -/
def BloomCell (a : Nat) : Prop := (0x700000000 ≤ a ∧ a < 0x700000020) ∨ (0x1700000000 ≤ a ∧ a < 0x1700000100)

def World.bloomSet (w : World) (m : Nat) : World := w.set (0x1700000000 + (255 - m / 8)) (w.mem (0x1700000000 + (255 - m / 8)) ||| 2 ^ (m % 8))

theorem bloomBit_set {m m' : Nat} (hm : m < 2048) (hm' : m' < 2048) : (w.bloomSet m).bloomBit m' = true ↔ w.bloomBit m' = true ∨ m = m' := by
  simp only [World.bloomBit, World.bloomSet]
  by_cases h : m / 8 = m' / 8
  · rw [h, set_same, Nat.testBit_or, Nat.testBit_two_pow, Bool.or_eq_true, decide_eq_true_eq]
    have : m % 8 = m' % 8 ↔ m = m' := by omega
    rw [this]
  · rw [set_ne (by omega)]
    have : m ≠ m' := fun e => h (by rw [e])
    simp [this]

theorem exec_bloom_bit {c : List I} {h s : Nat} (hs : s ≤ 255) :
    exec P (m_shr_const (.lit s) ++ (m_bloom_byte_indices ++ (m_bloom_write_bit ++ c))) (h :: S) w = exec P c S (w.bloomSet (h / 2 ^ s % 2048)) := by
  kexec [m_shr_const, m_bloom_byte_indices, m_bloom_write_bit, m_and_const, m_build_kernel_address]
  have e1 : wand 2047 (wshr s h) = h / 2 ^ s % 2048 := by
    simp only [wand, wshr]; rw [if_neg (by omega), Nat.and_comm, show 2047 = 2 ^ 11 - 1 from rfl, Nat.and_two_pow_sub_one_eq_mod]
  rw [e1]
  have hm : h / 2 ^ s % 2048 < 2048 := Nat.mod_lt _ (by decide)
  generalize h / 2 ^ s % 2048 = m at hm
  rw [wsub_small (a := 2047) (by omega) (by omega)]
  have e2 : wand 7 (2047 - m) = 7 - m % 8 := by
    simp only [wand]; rw [Nat.and_comm, show 7 = 2 ^ 3 - 1 from rfl, Nat.and_two_pow_sub_one_eq_mod]; omega
  have e3 : wshr 3 (2047 - m) = 255 - m / 8 := by simp only [wshr]; rw [if_neg (by omega)]; omega
  rw [e2, e3, wsub_small (by omega) (by omega), show 7 - (7 - m % 8) = m % 8 by omega]
  have e4 : wshl (m % 8) 1 = 2 ^ (m % 8) := by
    simp only [wshl]; rw [if_neg (by omega), Nat.one_mul]
    exact Nat.mod_eq_of_lt (Nat.pow_lt_pow_right (by decide) (by omega))
  rw [e4, wadd_small (by omega), exec_mload_at (by omega)]
  kexec []
  rw [exec_mstore_at (by omega)]
  kexec []
  rw [World.bloomSet, wor, Nat.or_comm]

/-- An entry is hashed and its three bits are set. -/
def World.bloomAdd (P : Prog) (w : World) (e : List Nat) : World :=
  (((w.put 0x700000000 e).bloomSet (bloomIdx (P.hash e) 0)).bloomSet (bloomIdx (P.hash e) 1)).bloomSet (bloomIdx (P.hash e) 2)

theorem bloomIdx_lt {h i : Nat} : bloomIdx h i < 2048 := Nat.mod_lt _ (by decide)

theorem bloomAdd_mem {e : List Nat} {a : Nat} (he : e.length ≤ 32) (ha : ¬ BloomCell a) : (w.bloomAdd P e).mem a = w.mem a := by
  simp only [BloomCell] at ha
  simp only [World.bloomAdd, World.bloomSet]
  rw [set_ne (by omega), set_ne (by omega), set_ne (by omega)]
  simp only [World.put]
  rw [if_neg (by omega)]

theorem bloomAdd_bit {e : List Nat} {m : Nat} (he : e.length ≤ 32) (hm : m < 2048) :
    (w.bloomAdd P e).bloomBit m = true ↔ w.bloomBit m = true ∨ ∃ i < 3, bloomIdx (P.hash e) i = m := by
  rw [World.bloomAdd, bloomBit_set bloomIdx_lt hm, bloomBit_set bloomIdx_lt hm, bloomBit_set bloomIdx_lt hm]
  have h0 : (w.put 0x700000000 e).bloomBit m = w.bloomBit m := by
    simp only [World.bloomBit, World.put]; rw [if_neg (by omega)]
  rw [h0]
  constructor
  · rintro (((h | h) | h) | h)
    · exact .inl h
    · exact .inr ⟨0, by omega, h⟩
    · exact .inr ⟨1, by omega, h⟩
    · exact .inr ⟨2, by omega, h⟩
  · rintro (h | ⟨i, hi, h⟩)
    · exact .inl (.inl (.inl h))
    · match i, hi, h with
      | 0, _, h => exact .inl (.inl (.inr h))
      | 1, _, h => exact .inl (.inr h)
      | 2, _, h => exact .inr h

theorem run_bloom_bits {e : List Nat} :
    Reaches P (exec P b_bloom_filter_1_after (P.hash e :: ret :: S) (w.put 0x700000000 e)) (.goto ret S (w.bloomAdd P e)) := by
  rw [b_bloom_filter_1_after]
  kexec []
  rw [exec_bloom_bit (by decide)]
  kexec []
  rw [exec_bloom_bit (by decide), exec_bloom_bit (by decide)]
  kexec []
  exact .refl _

theorem fix_hash {k v : Nat} : bytesAt (w.put 0x700000000 (beFix k v)) 0x700000000 k = beFix k v := by
  have hm : HasBytes (w.put 0x700000000 (beFix k v)) 0x700000000 (beFix k v) := (written_put (w := w) rfl rfl).here
  have hk := hm.bytes (beFix_bytes _ _)
  rw [beFix_length] at hk
  exact hk

theorem run_bloom_address (hP : P.Blooms) {x : Nat} :
    Reaches P (.goto (P.addr "add_to_bloom") (0 :: x :: ret :: S) w) (.goto ret S (w.bloomAdd P (beFix 20 x))) := by
  enter hP.has in bloomCode
  rw [b_add_to_bloom]
  kexec [ne_eq, not_true, not_false_eq_true, if_true]
  enter hP.has in bloomCode
  rw [b_bloom_filter_1_compute_entry_hash_address]
  kexec []
  refine (run_unpacking hP.copies (by decide) (by decide) ⟨by decide, by decide, by decide⟩).trans ?_
  enter hP.has in bloomCode
  rw [b_bloom_filter_3_after_mstore, store_fix]
  kexec []
  rw [wsub_small (by omega) (by omega), exec_keccak ⟨by decide, by decide⟩, show key (0x700000000 + 20 - 20) = 0x700000000 by decide, fix_hash]
  exact run_bloom_bits

theorem run_bloom_topic (hP : P.Blooms) {x : Nat} :
    Reaches P (.goto (P.addr "add_to_bloom") (1 :: x :: ret :: S) w) (.goto ret S (w.bloomAdd P (beFix 32 x))) := by
  enter hP.has in bloomCode
  rw [b_add_to_bloom]
  kexec []
  refine (run_unpacking hP.copies (by decide) (by decide) ⟨by decide, by decide, by decide⟩).trans ?_
  enter hP.has in bloomCode
  rw [b_bloom_filter_2_after_mstore, store_fix]
  kexec []
  rw [wsub_small (by omega) (by omega), exec_keccak ⟨by decide, by decide⟩, show key (0x700000000 + 32 - 32) = 0x700000000 by decide, fix_hash]
  kexec []
  enter hP.has in bloomCode
  exact run_bloom_bits

/-- The entries one after the other. -/
def World.bloomAll (P : Prog) (w : World) (es : List (List Nat)) : World := es.foldl (World.bloomAdd P) w

theorem bloomAll_mem {es : List (List Nat)} {a : Nat} (he : ∀ e ∈ es, e.length ≤ 32) (ha : ¬ BloomCell a) : (w.bloomAll P es).mem a = w.mem a := by
  induction es generalizing w with
  | nil => rfl
  | cons e es ih =>
    rw [World.bloomAll, List.foldl_cons]
    exact (ih fun e h => he e (.tail _ h)).trans (bloomAdd_mem (he e (.head _)) ha)

theorem bloomAll_ctx {es : List (List Nat)} : (w.bloomAll P es).ctx = w.ctx ∧ (w.bloomAll P es).inp = w.inp := by
  induction es generalizing w with
  | nil => exact ⟨rfl, rfl⟩
  | cons e es ih => exact ih (w := w.bloomAdd P e)

theorem bloomAll_bit {es : List (List Nat)} {m : Nat} (he : ∀ e ∈ es, e.length ≤ 32) (hm : m < 2048) :
    (w.bloomAll P es).bloomBit m = true ↔ w.bloomBit m = true ∨ ∃ e ∈ es, ∃ i < 3, bloomIdx (P.hash e) i = m := by
  induction es generalizing w with
  | nil => simp [World.bloomAll]
  | cons e es ih =>
    rw [World.bloomAll, List.foldl_cons]
    refine (ih fun e h => he e (.tail _ h)).trans ?_
    rw [bloomAdd_bit (he e (.head _)) hm]
    simp only [List.mem_cons, exists_eq_or_imp, or_assoc]

theorem run_bloom_topics (hP : P.Blooms) {ts R : List Nat} {j p l : Nat} (hl : j + ts.length = l) (hp : 0x1a00000000 ≤ p) (hp' : p + l < 38 * 2 ^ 32) (ht : HasBytes w (p + j) ts) :
    Reaches P (exec P b_logs_bloom_topic_loop (j :: p :: l :: R) w) (.goto (P.addr "logs_bloom_topic_end") (l :: p :: l :: R) (w.bloomAll P (ts.map (beFix 32)))) := by
  induction ts generalizing w j with
  | nil =>
    obtain rfl : j = l := by simpa using hl
    rw [b_logs_bloom_topic_loop]
    kexec [ne_eq, not_true, not_false_eq_true, if_true]
    exact .refl _
  | cons t ts ih =>
    have hl' : j + 1 + ts.length = l := by rw [List.length_cons] at hl; omega
    rw [b_logs_bloom_topic_loop]
    have hne : ¬ l = j := by omega
    have hne' : ¬ j = l := by omega
    kexec [hne, hne', ne_eq, not_true, if_false]
    rw [wadd_small (by omega)]
    try rw [Nat.add_comm j p]
    rw [exec_mload_at (by omega), ht.head]
    kexec []
    refine (run_bloom_topic hP).trans ?_
    enter hP.has in bloomCode
    rw [b_bloom_filter_5_after]
    kexec [m_increment, m_add_const]
    rw [wadd_small (by omega)]
    rw [show 1 + j = j + 1 from Nat.add_comm _ _]
    enter hP.has in bloomCode
    refine ih (w := w.bloomAdd P (beFix 32 t)) hl' fun i hi => ?_
    rw [bloomAdd_mem (by rw [beFix_length]; decide) (by simp only [BloomCell]; omega)]
    exact ht.tail i hi

theorem bloomEntries_len {ls : List LogItem} : ∀ e ∈ bloomEntries ls, e.length ≤ 32 := by
  intro e he
  simp only [bloomEntries, List.mem_flatMap, List.mem_cons, List.mem_map] at he
  obtain ⟨l, -, rfl | ⟨t, -, rfl⟩⟩ := he <;> rw [beFix_length] <;> decide

/-- One log. -/
theorem run_bloom_log (hP : P.Blooms) {i d N : Nat} {l : LogItem} (hi : i < N) (hN : N < 2 ^ 32) (hd : d + (logRecord l.addr l.topics l.data).length ≤ 2 ^ 32)
    (h : w.mem (0x1900000000 + i) = d) (hr : HasBytes w (0x1a00000000 + d) (logRecord l.addr l.topics l.data)) :
    Reaches P (exec P b_logs_bloom_loop (i :: N :: ret :: S) w)
      (.goto (P.addr "logs_bloom_loop") ((i + 1) :: N :: ret :: S) (w.bloomAll P (beFix 20 l.addr :: l.topics.map (beFix 32)))) := by
  obtain ⟨x, ts, dt⟩ := l
  simp only at *
  rw [logRecord] at hr hd
  have h1 : w.mem (0x1a00000000 + d + 1) = x := hr.tail.head
  have h2 : w.mem (0x1a00000000 + d + 1 + 1) = ts.length := hr.tail.tail.head
  have h3 : HasBytes w (0x1a00000000 + d + 1 + 1 + 1) ts := hr.tail.tail.tail.left
  simp only [List.length_cons, List.length_append] at hd
  have hk : ∀ a, 0x1a00000000 ≤ a → (w.bloomAdd P (beFix 20 x)).mem a = w.mem a := fun a ha =>
    bloomAdd_mem (by rw [beFix_length]; decide) (by simp only [BloomCell]; omega)
  rw [b_logs_bloom_loop]
  have hne : ¬ N = i := by omega
  have hne' : ¬ i = N := by omega
  kexec [hne, hne', ne_eq, not_true, if_false, m_mload_kernel, m_build_kernel_address, m_increment, m_add_const, not_false_eq_true, if_true]
  rw [wadd_small (by omega), exec_mload_at (by omega), h]
  kexec []
  rw [wadd_small (a := 1) (by omega), wadd_small (by omega), show 0x1a00000000 + (1 + d) = 0x1a00000000 + d + 1 by omega, exec_mload_at (by omega), h1]
  kexec []
  refine (run_bloom_address hP).trans ?_
  enter hP.has in bloomCode
  rw [b_bloom_filter_4_after]
  kexec [m_increment, m_add_const]
  rw [wadd_small (a := 1) (by omega), Nat.add_comm 1, exec_mload_at (by omega), hk _ (by omega), h2]
  kexec []
  rw [wadd_small (a := 1) (by omega), Nat.add_comm 1]
  refine (run_bloom_topics (ts := ts) hP (by omega) (by omega) (by omega) fun i hi => ?_).trans ?_
  · rw [hk _ (by omega)]; exact h3 i hi
  enter hP.has in bloomCode
  rw [b_logs_bloom_topic_end]
  kexec [m_pop3, rep, m_increment, m_add_const]
  rw [wadd_small (by omega), Nat.add_comm 1]
  exact .refl _

theorem run_bloom_logs (hP : P.Blooms) {ls pre : List LogItem} {N : Nat} (hN : pre.length + ls.length = N) (hN' : N < 2 ^ 32) (hd : (logsRecords (pre ++ ls)).length ≤ 2 ^ 32)
    (hp : ∀ i < N, w.mem (0x1900000000 + i) = (logsRecords ((pre ++ ls).take i)).length) (hr : HasBytes w 0x1a00000000 (logsRecords (pre ++ ls))) :
    Reaches P (exec P b_logs_bloom_loop (pre.length :: N :: ret :: S) w) (.goto ret S (w.bloomAll P (bloomEntries ls))) := by
  induction ls generalizing w pre with
  | nil =>
    obtain rfl : pre.length = N := by simpa using hN
    rw [b_logs_bloom_loop]
    kexec [ne_eq, not_true, not_false_eq_true, if_true]
    enter hP.has in bloomCode
    rw [b_logs_bloom_end]
    kexec [m_pop2, rep]
    exact .refl _
  | cons l ls ih =>
    rw [List.length_cons] at hN
    have hrec : logsRecords (pre ++ l :: ls) = logsRecords pre ++ (logRecord l.addr l.topics l.data ++ logsRecords ls) := by simp [logsRecords]
    have h1 := hp pre.length (by omega)
    rw [List.take_left] at h1
    have hd' := hd
    rw [hrec, List.length_append, List.length_append] at hd'
    have hr' := hr
    rw [hrec] at hr'
    refine (run_bloom_log hP (by omega) hN' (by omega) h1 hr'.right.left).trans ?_
    enter hP.has in bloomCode
    have hlen : ∀ e ∈ beFix 20 l.addr :: l.topics.map (beFix 32), e.length ≤ 32 := fun e he =>
      bloomEntries_len (ls := [l]) e (by simpa [bloomEntries] using he)
    have hk : ∀ a, 0x1900000000 ≤ a → (w.bloomAll P (beFix 20 l.addr :: l.topics.map (beFix 32))).mem a = w.mem a := fun a ha =>
      bloomAll_mem hlen (by simp only [BloomCell]; omega)
    have e : pre ++ l :: ls = (pre ++ [l]) ++ ls := by simp
    have := ih (pre := pre ++ [l]) (w := w.bloomAll P (beFix 20 l.addr :: l.topics.map (beFix 32))) (by rw [List.length_append, List.length_singleton]; omega) (by rw [← e]; exact hd)
      (fun i hi => by rw [hk _ (by omega), ← e]; exact hp i hi) (fun i hi => by rw [← e] at hi ⊢; rw [hk _ (by omega)]; exact hr i hi)
    rw [List.length_append, List.length_singleton] at this
    refine this.trans ?_
    rw [show bloomEntries (l :: ls) = (beFix 20 l.addr :: l.topics.map (beFix 32)) ++ bloomEntries ls by simp [bloomEntries]]
    simp only [World.bloomAll, List.foldl_append]
    exact .refl _

/-- The filter after the logs: besides the bits it had, it has the three bits of the hash of every address and every
topic, and no others.  Nothing else changes but the bytes that are hashed. -/
theorem C137_bloom (hP : P.Blooms) {ls : List LogItem} (h : LogsAre w ls) (hk : ls.length < 2 ^ 32) (hd : (logsRecords ls).length ≤ 2 ^ 32) :
    ∃ w', Reaches P (.goto (P.addr "logs_bloom") (ret :: S) w) (.goto ret S w') ∧
      (∀ m < 2048, w'.bloomBit m = true ↔ w.bloomBit m = true ∨ ∃ e ∈ bloomEntries ls, ∃ i < 3, bloomIdx (P.hash e) i = m) ∧
      LogsAre w' ls ∧ w'.ctx = w.ctx ∧ w'.inp = w.inp ∧ ∀ a, ¬ BloomCell a → w'.mem a = w.mem a := by
  have hm : ∀ {a}, ¬ BloomCell a → (w.bloomAll P (bloomEntries ls)).mem a = w.mem a := fun ha => bloomAll_mem bloomEntries_len ha
  refine ⟨w.bloomAll P (bloomEntries ls), ?_, fun m hm => bloomAll_bit bloomEntries_len hm, ?_, bloomAll_ctx.1, bloomAll_ctx.2, fun a ha => hm ha⟩
  · enter hP.has in bloomCode
    rw [b_logs_bloom, exec_load_global (by decide)]
    kexec []
    rw [show w.mem 0x500000027 = _ from h.count]
    exact run_bloom_logs (pre := []) hP (by simp) hk hd (fun i hi => h.places i hi) h.records
  · refine ⟨?_, fun i hi => ?_, fun i hi => ?_, ?_, ?_⟩
    · rw [hm (by simp only [BloomCell, logsLen]; omega)]; exact h.count
    · rw [hm (by simp only [BloomCell]; omega)]; exact h.places i hi
    · rw [hm (by simp only [BloomCell]; omega)]; exact h.records i hi
    · rw [hm (by simp only [BloomCell, logsDataLen]; omega)]; exact h.next
    · rw [hm (by simp only [BloomCell, logsPayload]; omega)]; exact h.payload

/-- No log is missed: whoever looks for an address or a topic of the logs finds its three bits. -/
theorem C137_found (hP : P.Blooms) {ls : List LogItem} (h : LogsAre w ls) (hk : ls.length < 2 ^ 32) (hd : (logsRecords ls).length ≤ 2 ^ 32) {l : LogItem} (hl : l ∈ ls) :
    ∃ w', Reaches P (.goto (P.addr "logs_bloom") (ret :: S) w) (.goto ret S w') ∧
      ∀ i < 3, w'.bloomBit (bloomIdx (P.hash (beFix 20 l.addr)) i) = true ∧ ∀ t ∈ l.topics, w'.bloomBit (bloomIdx (P.hash (beFix 32 t)) i) = true := by
  obtain ⟨w', h1, h2, -⟩ := C137_bloom (ret := ret) (S := S) hP h hk hd
  refine ⟨w', h1, fun i hi => ⟨(h2 _ bloomIdx_lt).2 (.inr ⟨_, ?_, i, hi, rfl⟩), fun t ht => (h2 _ bloomIdx_lt).2 (.inr ⟨_, ?_, i, hi, rfl⟩)⟩⟩
  · exact List.mem_flatMap.2 ⟨l, hl, .head _⟩
  · exact List.mem_flatMap.2 ⟨l, hl, .tail _ (List.mem_map_of_mem ht)⟩

def bloomsCode : List (String × List I) := bloomCode ++ copyCode

def bloomsProg : Prog := tableProg bloomsCode fun l => l.sum * 2 ^ 240 + l.sum * 2 ^ 228 + 5 * 2 ^ 208

theorem bloomsProg_has : bloomsProg.Has bloomsCode := tableProg_has _ _ (by decide +kernel) (by decide +kernel) (by decide +kernel)

theorem bloomsProg_ok : bloomsProg.Blooms :=
  ⟨tableProg_copies _ _ (by decide +kernel) (by decide +kernel) (by decide +kernel) (by simp +contextual [bloomsCode]), bloomsProg_has.mono (by simp +contextual [bloomsCode])⟩

/-- One log of the account 7 with the topic 1. -/
def bloomWorld : World :=
  ⟨fun a => if a = 0x500000027 then 1 else if a = 0x500000028 then 5 else if a = 0x500000029 then 58
    else if 0x1a00000000 ≤ a then (logRecord 7 [1] []).getD (a - 0x1a00000000) 0 else 0, 1, fun _ => 0⟩

theorem bloomWorld_logs : LogsAre bloomWorld [⟨7, [1], []⟩] :=
  ⟨by decide +kernel, by decide +kernel, by unfold HasBytes; decide +kernel, by decide +kernel, by decide +kernel⟩

/-- The bits are those of the hash of the account (7, 112 and 5) and of the topic (1, 16 and 5). -/
example : ∃ w', Reaches bloomsProg (.goto (bloomsProg.addr "logs_bloom") [77] bloomWorld) (.goto 77 [] w') ∧
    w'.bloomBit 112 = true ∧ w'.bloomBit 16 = true ∧ w'.bloomBit 6 = false := by
  obtain ⟨w', h1, h2, -⟩ := C137_bloom (ret := 77) (S := []) bloomsProg_ok bloomWorld_logs (by decide) (by decide +kernel)
  refine ⟨w', h1, (h2 _ (by decide)).2 (.inr ?_), (h2 _ (by decide)).2 (.inr ?_), ?_⟩
  · exact ⟨beFix 20 7, .head _, 1, by decide, by decide +kernel⟩
  · exact ⟨beFix 32 1, .tail _ (.head _), 1, by decide, by decide +kernel⟩
  · rw [← Bool.not_eq_true, h2 _ (by decide)]
    decide +kernel

end Verif.Kasm
