import Verif.Kasm.Bloom
import Verif.Kasm.Accounts
import Verif.Kasm.Code.Receipt

/-! # Receipts

`asm/core/create_receipt.asm:13-209`.  What is stored for a transaction and handed to the insertion in the trie of
receipts. -/

namespace Verif.Kasm

variable {P : Prog} {w : World} {S R : List Nat} {n k ret : Nat}

/-- The kernel has the code for receipts. -/
structure Prog.Receipts (P : Prog) : Prop where
  rlps : P.Rlps
  blooms : P.Has bloomCode
  has : P.Has receiptCode

/-- The length of the trie data. -/
abbrev trieLen : Nat := 0x500000002

/-- Words appended to the trie data. -/
def World.app (w : World) (l : List Nat) : World := (w.set trieLen (w.mem trieLen + l.length)).put (0xc00000000 + w.mem trieLen) l

theorem app_mem {l : List Nat} {a : Nat} (h : a ≠ trieLen) (h' : a < 0xc00000000 + w.mem trieLen ∨ 0xc00000000 + w.mem trieLen + l.length ≤ a) : (w.app l).mem a = w.mem a := by
  simp only [World.app, World.put]
  rw [if_neg (by omega), set_ne h]

theorem app_len {l : List Nat} : (w.app l).mem trieLen = w.mem trieLen + l.length := by
  simp only [World.app, World.put]
  rw [if_neg (by simp only [trieLen]; omega), set_same]

theorem app_here {l : List Nat} : HasBytes (w.app l) (0xc00000000 + w.mem trieLen) l :=
  (written_put (w := w.set trieLen (w.mem trieLen + l.length)) rfl rfl).here

theorem app_nil : w.app [] = w := by
  refine World.mem_ext (fun a => ?_) rfl rfl
  by_cases h : a = trieLen
  · subst h; rw [app_len]; rfl
  · exact app_mem h (by simp only [List.length_nil]; omega)

theorem app_app {l l' : List Nat} : (w.app l).app l' = w.app (l ++ l') := by
  refine World.mem_ext (fun a => ?_) rfl rfl
  by_cases h : a = trieLen
  · subst h; rw [app_len, app_len, app_len, List.length_append]; omega
  · by_cases h1 : a < 0xc00000000 + w.mem trieLen ∨ 0xc00000000 + w.mem trieLen + (l ++ l').length ≤ a
    · rw [app_mem h h1]
      rw [List.length_append] at h1
      rw [app_mem h (by rw [app_len]; omega), app_mem h (by omega)]
    · obtain ⟨i, rfl⟩ : ∃ i, a = 0xc00000000 + w.mem trieLen + i := ⟨a - (0xc00000000 + w.mem trieLen), by omega⟩
      have h2 : i < (l ++ l').length := by omega
      rw [app_here i h2]
      rw [List.length_append] at h2
      by_cases h3 : i < l.length
      · rw [app_mem h (by rw [app_len]; omega), app_here i h3]
        simp only [List.getD_eq_getElem?_getD]
        rw [List.getElem?_append_left h3]
      · have := app_here (w := w.app l) (l := l') (i - l.length) (by omega)
        rw [app_len, show 0xc00000000 + (w.mem trieLen + l.length) + (i - l.length) = 0xc00000000 + w.mem trieLen + i by omega] at this
        rw [this]
        simp only [List.getD_eq_getElem?_getD]
        rw [List.getElem?_append_right (by omega)]

theorem exec_app {c : List I} {v : Nat} (h : w.mem trieLen < 2 ^ 32) : exec P (m_append_to_trie_data ++ c) (v :: S) w = exec P c S (w.app [v]) := by
  simp only [trieLen] at h
  kexec [m_append_to_trie_data, m_get_trie_data_size, m_mload_global_metadata, m_increment,
    m_add_const, m_set_trie_data_size, m_mstore_global_metadata, m_mstore_trie_data, m_mstore_kernel1, m_build_kernel_address]
  rw [exec_mload_at (by omega)]
  kexec []
  rw [exec_mstore_at (by omega)]
  kexec []
  rw [wadd_small (a := 1) (by omega), wadd_small (by omega), exec_mstore_at (by omega), World.app, List.length_singleton, Nat.add_comm 1, put_one]

/-- `asm/core/create_receipt.asm:144-160` and `177-193`: words are copied. -/
theorem run_receipt_copy {LL EL : String} {c : List I} {code : List (String × List I)} (hP : P.Has code) (hc : (LL, c) ∈ code)
    (he : c = DUP 2 :: DUP 2 :: EQ :: (m_jumpi (.lab EL) ++ DUP 3 :: DUP 2 :: ADD :: MLOAD_GENERAL :: (m_append_to_trie_data ++ (m_increment ++ (m_jump (.lab LL) ++ [])))))
    {ts : List Nat} {j p l : Nat} (hl : j + ts.length = l) (hp : 0x1a00000000 ≤ p) (hp' : p + l < 38 * 2 ^ 32) (ht : HasBytes w (p + j) ts) (hs : w.mem trieLen + ts.length ≤ 2 ^ 32) :
    Reaches P (exec P c (j :: l :: p :: R) w) (.goto (P.addr EL) (l :: l :: p :: R) (w.app ts)) := by
  induction ts generalizing w j with
  | nil =>
    obtain rfl : j = l := by simpa using hl
    rw [he]
    kexec [ne_eq, not_true, not_false_eq_true, if_true]
    rw [app_nil]
    exact .refl _
  | cons t ts ih =>
    rw [List.length_cons] at hl hs
    rw [he]
    have hne : ¬ l = j := by omega
    have hne' : ¬ j = l := by omega
    kexec [hne, hne', ne_eq, not_true, not_false_eq_true, if_true, if_false]
    rw [wadd_small (by omega)]
    try rw [Nat.add_comm j p]
    rw [exec_mload_at (by omega), ht.head, exec_app (by omega)]
    kexec [m_increment, m_add_const]
    rw [wadd_small (by omega), Nat.add_comm 1]
    refine .enter hP hc ((ih (w := w.app [t]) (by omega) (fun i hi => ?_) (by rw [app_len, List.length_singleton]; omega)).trans ?_)
    · rw [app_mem (by simp only [trieLen]; omega) (by rw [List.length_singleton]; omega)]
      exact ht.tail i hi
    · rw [app_app]; exact .refl _

/-- One log. -/
theorem run_receipt_log (hP : P.Has receiptCode) {i d N : Nat} {l : LogItem} (hi : i < N) (hN : N < 2 ^ 32) (hd : d + (logRecord l.addr l.topics l.data).length ≤ 2 ^ 32)
    (h : w.mem (0x1900000000 + i) = d) (hr : HasBytes w (0x1a00000000 + d) (logRecord l.addr l.topics l.data))
    (hs : w.mem trieLen + (logRecord l.addr l.topics l.data).length ≤ 2 ^ 32) :
    Reaches P (exec P b_process_receipt_logs_loop (i :: N :: R) w)
      (.goto (P.addr "process_receipt_logs_loop") ((i + 1) :: N :: R) (w.app (logRecord l.addr l.topics l.data))) := by
  obtain ⟨x, ts, dt⟩ := l
  simp only at *
  have hk : ∀ (L : List Nat) a, w.mem trieLen + L.length ≤ 2 ^ 32 → 0x1900000000 ≤ a → (w.app L).mem a = w.mem a := fun L a hL ha =>
    app_mem (by simp only [trieLen]; omega) (by omega)
  rw [logRecord] at hr hd hs ⊢
  generalize (rlpStr (beFix 20 x) ++ (rlpList (topicsRlp ts) ++ rlpStr dt)).length = pay at *
  have h0 := hr.head
  have h1 := hr.tail.head
  have h2 := hr.tail.tail.head
  have h3 := hr.tail.tail.tail.left
  have h4 := hr.tail.tail.tail.right.head
  have h5 := hr.tail.tail.tail.right.tail
  simp only [List.length_cons, List.length_append] at hd hs
  rw [b_process_receipt_logs_loop]
  have hne : ¬ N = i := by omega
  have hne' : ¬ i = N := by omega
  kexec [hne, hne', ne_eq, not_true, not_false_eq_true, if_true, if_false, m_mload_kernel, m_build_kernel_address]
  rw [wadd_small (by omega), exec_mload_at (by omega), h]
  kexec []
  rw [wadd_small (by omega), exec_mload_at (by omega), h0, exec_app (by omega)]
  kexec [m_increment, m_add_const]
  rw [wadd_small (a := 1) (by omega), Nat.add_comm 1, exec_mload_at (by omega), hk _ _ (by rw [List.length_singleton]; omega) (by omega), h1,
    exec_app (by rw [app_len, List.length_singleton]; omega), app_app]
  kexec []
  rw [wadd_small (a := 1) (by omega), Nat.add_comm 1, exec_mload_at (by omega), hk _ _ (by simp only [List.length_cons, List.length_nil]; omega) (by omega), h2]
  kexec []
  rw [exec_app (by rw [app_len]; simp only [List.length_cons, List.length_nil]; omega), app_app]
  kexec []
  rw [wadd_small (a := 1) (by omega), Nat.add_comm 1]
  refine (run_receipt_copy (LL := "process_receipt_topics_loop") (EL := "process_receipt_topics_end") (ts := ts) hP (List.mem_of_getElem? (i := 12) rfl) (by rw [b_process_receipt_topics_loop]) (by omega) (by omega) (by omega)
    (fun i hi => ?_) (by rw [app_len]; simp only [List.length_cons, List.length_nil]; omega)).trans ?_
  · rw [hk _ _ (by simp only [List.length_cons, List.length_nil]; omega) (by omega)]; exact h3 i hi
  enter hP in receiptCode
  rw [b_process_receipt_topics_end, app_app]
  kexec []
  rw [wadd_small (by omega), Nat.add_comm ts.length, exec_mload_at (by omega), hk _ _ (by simp only [List.length_append, List.length_cons, List.length_nil]; omega) (by omega), h4]
  kexec []
  rw [exec_app (by rw [app_len]; simp only [List.length_append, List.length_cons, List.length_nil]; omega), app_app]
  kexec [m_increment, m_add_const]
  rw [wadd_small (a := 1) (by omega), Nat.add_comm 1]
  refine (run_receipt_copy (LL := "process_receipt_data_loop") (EL := "process_receipt_data_end") (ts := dt) hP (List.mem_of_getElem? (i := 14) rfl) (by rw [b_process_receipt_data_loop]) (by omega) (by omega) (by omega)
    (fun i hi => ?_) (by rw [app_len]; simp only [List.length_append, List.length_cons, List.length_nil]; omega)).trans ?_
  · rw [hk _ _ (by simp only [List.length_append, List.length_cons, List.length_nil]; omega) (by omega)]; exact h5 i hi
  enter hP in receiptCode
  rw [b_process_receipt_data_end, app_app]
  kexec [m_pop3, rep, m_increment, m_add_const]
  rw [wadd_small (by omega), Nat.add_comm 1]
  exact .refl _

theorem run_receipt_logs (hP : P.Has receiptCode) {ls pre : List LogItem} {N : Nat} (hN : pre.length + ls.length = N) (hN' : N < 2 ^ 32) (hd : (logsRecords (pre ++ ls)).length ≤ 2 ^ 32)
    (hp : ∀ i < N, w.mem (0x1900000000 + i) = (logsRecords ((pre ++ ls).take i)).length) (hr : HasBytes w 0x1a00000000 (logsRecords (pre ++ ls)))
    (hs : w.mem trieLen + (logsRecords ls).length ≤ 2 ^ 32) :
    Reaches P (exec P b_process_receipt_logs_loop (pre.length :: N :: R) w) (.goto (P.addr "process_receipt_after_write") (N :: N :: R) (w.app (logsRecords ls))) := by
  induction ls generalizing w pre with
  | nil =>
    obtain rfl : pre.length = N := by simpa using hN
    rw [b_process_receipt_logs_loop]
    kexec [ne_eq, not_true, not_false_eq_true, if_true]
    rw [show logsRecords [] = [] from rfl, app_nil]
    exact .refl _
  | cons l ls ih =>
    rw [List.length_cons] at hN
    have hrec : logsRecords (pre ++ l :: ls) = logsRecords pre ++ (logRecord l.addr l.topics l.data ++ logsRecords ls) := by simp [logsRecords]
    have hrec' : logsRecords (l :: ls) = logRecord l.addr l.topics l.data ++ logsRecords ls := by simp [logsRecords]
    have h1 := hp pre.length (by omega)
    rw [List.take_left] at h1
    have hd' := hd
    rw [hrec, List.length_append, List.length_append] at hd'
    rw [hrec', List.length_append] at hs
    have hr' := hr
    rw [hrec] at hr'
    refine (run_receipt_log hP (by omega) hN' (by omega) h1 hr'.right.left (by omega)).trans ?_
    enter hP in receiptCode
    have hk : ∀ a, 0x1900000000 ≤ a → (w.app (logRecord l.addr l.topics l.data)).mem a = w.mem a := fun a ha =>
      app_mem (by simp only [trieLen]; omega) (by omega)
    have e : pre ++ l :: ls = (pre ++ [l]) ++ ls := by simp
    have := ih (pre := pre ++ [l]) (w := w.app (logRecord l.addr l.topics l.data)) (by rw [List.length_append, List.length_singleton]; omega) (by rw [← e]; exact hd)
      (fun i hi => by rw [hk _ (by omega), ← e]; exact hp i hi) (fun i hi => by rw [← e] at hi ⊢; rw [hk _ (by omega)]; exact hr i hi) (by rw [app_len]; omega)
    rw [List.length_append, List.length_singleton, app_app, ← hrec'] at this
    exact this

/-- The bytes of the filter. -/
def World.bloomBytes (w : World) : List Nat := cellsAt w 0x1700000000 256

theorem copy_app :
    ((w.copy (0xc00000000 + w.mem trieLen) 0x1700000000 256).set trieLen (w.mem trieLen + 256)) = w.app w.bloomBytes := by
  have hl : w.bloomBytes.length = 256 := cellsAt_length
  refine World.mem_ext (fun a => ?_) rfl rfl
  by_cases h : a = trieLen
  · subst h; rw [app_len, set_same, hl]
  · rw [set_ne h]
    by_cases h1 : 0xc00000000 + w.mem trieLen ≤ a ∧ a < 0xc00000000 + w.mem trieLen + 256
    · obtain ⟨i, rfl⟩ : ∃ i, a = 0xc00000000 + w.mem trieLen + i := ⟨a - (0xc00000000 + w.mem trieLen), by omega⟩
      rw [app_here i (by omega)]
      show (if _ then _ else _) = _
      rw [if_pos h1, World.bloomBytes, cellsAt, List.getD_eq_getElem?_getD, List.getElem?_map, List.getElem?_range (by omega), Nat.add_sub_cancel_left]
      rfl
    · rw [app_mem h (by omega)]
      show (if _ then _ else _) = _
      rw [if_neg h1]

/-- The words after the type: the length of the RLP, the status, the gas, the filter, the logs. -/
def receiptWords (w : World) (pay status cum : Nat) (ls : List LogItem) : List Nat :=
  [pay, status, cum] ++ w.bloomBytes ++ [(logsRlp ls).length, ls.length] ++ logsRecords ls

/-- The logs a receipt is made from: those of `LogsAre`, but for the room they take. -/
structure LogsKept (w : World) (ls : List LogItem) : Prop where
  count : w.mem logsLen = ls.length
  places : ∀ i < ls.length, w.mem (0x1900000000 + i) = (logsRecords (ls.take i)).length
  records : HasBytes w 0x1a00000000 (logsRecords ls)
  payload : w.mem logsPayload = (logsRlp ls).length

theorem LogsAre.kept {ls : List LogItem} (h : LogsAre w ls) : LogsKept w ls := ⟨h.count, h.places, h.records, h.payload⟩

theorem run_receipt_write (hP : P.Receipts) {ls : List LogItem} {ptr pay status cum nb nn cum' nb' : Nat} (h : LogsKept w ls) (hk : ls.length < 2 ^ 32) (hd : (logsRecords ls).length ≤ 2 ^ 32)
    (hb : ∀ i < 256, w.mem (0x1700000000 + i) < 256) (hs : w.mem trieLen + (261 + (logsRecords ls).length) ≤ 2 ^ 32) :
    Reaches P (exec P b_process_receipt_after_type (ptr :: pay :: status :: cum :: nb :: cum' :: nb' :: nn :: S) w)
      (.goto (P.addr "mpt_insert_receipt_trie") (nn :: nb :: ptr :: P.addr "create_receipt@6.after" :: cum' :: nb' :: nn :: S) (w.app (receiptWords w pay status cum ls))) := by
  have hm : ∀ (L : List Nat) a, w.mem trieLen + L.length ≤ 2 ^ 32 → a ≠ trieLen → a < 0xc00000000 ∨ 0xd00000000 ≤ a → (w.app L).mem a = w.mem a := fun L a hL h1 h2 =>
    app_mem h1 (by omega)
  rw [b_process_receipt_after_type]
  kexec []
  rw [exec_app (by omega)]
  kexec []
  rw [exec_app (by rw [app_len, List.length_singleton]; omega), app_app]
  kexec []
  rw [exec_app (by rw [app_len]; simp only [List.length_append, List.length_cons, List.length_nil]; omega), app_app]
  kexec [m_get_trie_data_size]
  rw [exec_load_global (by decide)]
  kexec []
  have hL : (w.app [pay, status, cum]).mem 0x500000002 = w.mem trieLen + 3 := app_len
  have hbb : (w.app [pay, status, cum]).bloomBytes = w.bloomBytes :=
    List.map_congr_left fun i hi => hm _ _ (by simp only [List.length_cons, List.length_nil]; omega) (by simp only [trieLen]; omega) (by omega)
  have hb' : ∀ i < 256, (w.app [pay, status, cum]).mem (0x1700000000 + i) < 256 := fun i hi => by
    rw [hm _ _ (by simp only [List.length_cons, List.length_nil]; omega) (by simp only [trieLen]; omega) (by omega)]; exact hb i hi
  have hca := copy_app (w := w.app [pay, status, cum])
  rw [hbb, app_app, app_len] at hca
  rw [hL, wadd_small (by omega)]
  have hm2 : (w.app [pay, status, cum]).mem trieLen = w.mem trieLen + 3 := hL
  refine (run_memcpy_bytes hP.rlps.copies 256 _ _ _ ⟨by omega, by simp only [SegOk]; omega, by omega⟩ ⟨by decide, by simp only [SegOk]; decide, by decide⟩ (by omega) hb').trans ?_
  enter hP.has in receiptCode
  rw [b_create_receipt_5_after]
  kexec [m_get_trie_data_size, m_set_trie_data_size, m_add_const]
  rw [exec_load_global (by decide)]
  have hcl : ((w.app [pay, status, cum]).copy (0xc00000000 + (w.mem trieLen + 3)) 0x1700000000 256).mem 0x500000002 = w.mem trieLen + 3 := by
    show (if _ then _ else _) = _
    rw [if_neg (by omega), hL]
  kexec []
  rw [hcl, wadd_small (by omega), exec_store_global (by decide), Nat.add_comm 256]
  simp only [trieLen, List.length_cons, List.length_nil, Nat.zero_add, Nat.reduceAdd] at hca ⊢
  rw [hca]
  have hbl : w.bloomBytes.length = 256 := cellsAt_length
  have hl3 : ([pay, status, cum] ++ w.bloomBytes).length = 259 := by rw [List.length_append, hbl]; rfl
  rw [exec_load_global (by decide), hm _ 0x500000029 (by omega) (by decide) (by omega), show w.mem 0x500000029 = _ from h.payload]
  rw [exec_app (by rw [app_len]; omega), app_app]
  rw [exec_load_global (by decide), hm _ 0x500000027 (by rw [List.length_append, hl3, List.length_singleton]; omega) (by decide) (by omega), show w.mem 0x500000027 = _ from h.count]
  kexec []
  rw [exec_app (by rw [app_len]; simp only [List.length_cons, List.length_append, List.length_nil, hbl]; omega), app_app]
  kexec []
  have hl5 : (pay :: status :: cum :: (w.bloomBytes ++ [(logsRlp ls).length, ls.length])).length = 261 := by
    simp only [List.length_cons, List.length_append, List.length_nil, hbl]
  generalize hF : pay :: status :: cum :: (w.bloomBytes ++ [(logsRlp ls).length, ls.length]) = F at *
  have hF' : receiptWords w pay status cum ls = F ++ logsRecords ls := by rw [← hF, receiptWords]; simp
  refine (run_receipt_logs (pre := []) (ls := ls) hP.has (by simp) hk (by simpa using hd) (fun i hi => ?_) (fun i hi => ?_) (by rw [app_len]; omega)).trans ?_
  · rw [hm _ _ (by omega) (by simp only [trieLen]; omega) (by omega)]; exact h.places i hi
  · rw [hm _ _ (by omega) (by simp only [trieLen]; omega) (by omega)]; exact h.records i hi
  enter hP.has in receiptCode
  rw [b_process_receipt_after_write, app_app, ← hF']
  kexec [m_pop2, rep]
  exact .refl _

/-- The length of the RLP of a receipt without its header. -/
def receiptPay (cum : Nat) (ls : List LogItem) : Nat := 1 + (rlpNum cum).length + 259 + (rlpList (logsRlp ls)).length

/-- The type is written for transactions that have one. -/
def typeWords (t : Nat) : List Nat := if t = 1 ∨ t = 2 ∨ t = 3 then [t] else []

theorem run_receipt_type (hP : P.Receipts) {ls : List LogItem} {pay status cum nb nn cum' nb' : Nat} (h : LogsKept w ls) (hk : ls.length < 2 ^ 32) (hd : (logsRecords ls).length ≤ 2 ^ 32)
    (hb : ∀ i < 256, w.mem (0x1700000000 + i) < 256) (hs : w.mem trieLen + (262 + (logsRecords ls).length) ≤ 2 ^ 32) (x y : Nat) (hxy : wadd x y = pay) :
    Reaches P (exec P b_create_receipt_3_finish (x :: y :: status :: cum :: nb :: cum' :: nb' :: nn :: S) w)
      (.goto (P.addr "mpt_insert_receipt_trie") (nn :: nb :: w.mem trieLen :: P.addr "create_receipt@6.after" :: cum' :: nb' :: nn :: S)
        (w.app (typeWords (w.mem 0x900000000) ++ receiptWords w pay status cum ls))) := by
  have hm : ∀ t a, a ≠ trieLen → a < 0xc00000000 ∨ 0xd00000000 ≤ a → (w.app [t]).mem a = w.mem a := fun t a h1 h2 =>
    app_mem h1 (by rw [List.length_singleton]; omega)
  rw [b_create_receipt_3_finish]
  kexec [m_get_trie_data_size]
  rw [exec_load_global (by decide), exec_load_txn (by decide), hxy]
  have key : ∀ t, (t = 1 ∨ t = 2 ∨ t = 3) → Reaches P (.goto (P.addr "receipt_nonzero_type") (t :: w.mem trieLen :: pay :: status :: cum :: nb :: cum' :: nb' :: nn :: S) w)
      (.goto (P.addr "mpt_insert_receipt_trie") (nn :: nb :: w.mem trieLen :: P.addr "create_receipt@6.after" :: cum' :: nb' :: nn :: S)
        (w.app (typeWords t ++ receiptWords w pay status cum ls))) := by
    intro t ht
    enter hP.has in receiptCode
    rw [b_receipt_nonzero_type, exec_app (by omega)]
    kexec []
    enter hP.has in receiptCode
    have hbb : (w.app [t]).bloomBytes = w.bloomBytes :=
      List.map_congr_left fun i hi => hm _ _ (by simp only [trieLen]; omega) (by omega)
    have := run_receipt_write (S := S) (ptr := w.mem trieLen) (pay := pay) (status := status) (cum := cum) (nb := nb) (nn := nn) (cum' := cum') (nb' := nb') (w := w.app [t]) (ls := ls) hP
      ⟨by rw [hm _ _ (by decide) (by decide)]; exact h.count, fun i hi => by rw [hm _ _ (by simp only [trieLen]; omega) (by omega)]; exact h.places i hi,
        fun i hi => by rw [hm _ _ (by simp only [trieLen]; omega) (by omega)]; exact h.records i hi, by rw [hm _ _ (by decide) (by decide)]; exact h.payload⟩ hk hd
      (fun i hi => by rw [hm _ _ (by simp only [trieLen]; omega) (by omega)]; exact hb i hi) (by rw [app_len, List.length_singleton]; omega)
    rw [app_app] at this
    simp only [receiptWords, hbb] at this ⊢
    rw [typeWords, if_pos ht]
    exact this
  by_cases h1 : w.mem 0x900000000 = 1
  · have := key 1 (by decide)
    kexec [m_eq_const, h1, ne_eq, not_true, not_false_eq_true, if_true, if_false]
    exact this
  by_cases h2 : w.mem 0x900000000 = 2
  · have := key 2 (by decide)
    kexec [m_eq_const, h2, ne_eq, not_true, not_false_eq_true, if_true, if_false]
    exact this
  by_cases h3 : w.mem 0x900000000 = 3
  · have := key 3 (by decide)
    kexec [m_eq_const, h3, ne_eq, not_true, not_false_eq_true, if_true, if_false]
    exact this
  kexec [m_eq_const, h1, h2, h3, Ne.symm h1, Ne.symm h2, Ne.symm h3, ne_eq, not_true, not_false_eq_true, if_true, if_false]
  rw [typeWords, if_neg (by omega), List.nil_append]
  exact run_receipt_write hP h hk hd hb (by omega)

theorem rlpNum_length_eq {v : Nat} (hv : v < 2 ^ 256) : (rlpNum v).length = if 127 < v then 1 + (beMin v).length else 1 := by
  by_cases h0 : v = 0
  · subst h0; rw [rlpNum_zero]; rfl
  by_cases h : 127 < v
  · rw [if_pos h]
    by_cases h1 : v < 256
    · rw [rlpNum, beMin_byte h0 h1]
      show (if v < 0x80 then [v] else [0x81, v]).length = _
      rw [if_neg (by omega)]; rfl
    · have h2 : (beMin v).length ≠ 1 := by
        rw [beMin_pos h0, List.length_append, List.length_singleton]
        have := beMin_ne (n := v / 256) (by omega)
        omega
      have := beMin_le32 hv
      rw [rlpNum, rlpStr_short h2 (by omega), List.length_cons]; omega
  · rw [if_neg h, rlpNum_small h0 (by omega)]; rfl

/-- The hints for the lengths. -/
def ReceiptHints (w : World) (cum : Nat) (ls : List LogItem) : Prop :=
  (127 < cum → w.inp 0 = bits cum) ∧ (55 < (logsRlp ls).length → (w.nextIf (127 < cum)).inp 0 = bits (logsRlp ls).length)

theorem run_receipt_pay (hP : P.Receipts) {ls : List LogItem} {status cum nb nn : Nat} (h : LogsKept w ls) (hk : ls.length < 2 ^ 32) (hd : (logsRecords ls).length ≤ 2 ^ 32)
    (hb : ∀ i < 256, w.mem (0x1700000000 + i) < 256) (hs : w.mem trieLen + (262 + (logsRecords ls).length) ≤ 2 ^ 32) (hc : cum < 2 ^ 256) (hi : ∀ i < 2, w.inp i < 2 ^ 256)
    (hl : (logsRlp ls).length < 2 ^ 64) :
    Returns P (ReceiptHints w cum ls) (.goto (P.addr "process_receipt_after_bloom") (status :: cum :: nb :: nn :: S) w) (P.addr "mpt_insert_receipt_trie") fun s w' =>
      s = nn :: nb :: w.mem trieLen :: P.addr "create_receipt@6.after" :: cum :: nb :: nn :: S ∧
      w' = ((w.nextIf (127 < cum)).nextIf (55 < (logsRlp ls).length)).app (typeWords (w.mem 0x900000000) ++ receiptWords w (receiptPay cum ls) status cum ls) := by
  have h32 := beMin_le32 hc
  have hfin : Returns P (ReceiptHints w cum ls) (exec P b_create_receipt_1_finish ((rlpNum cum).length :: 1 :: status :: cum :: nb :: cum :: nb :: nn :: S) (w.nextIf (127 < cum))) (P.addr "mpt_insert_receipt_trie") fun s w' =>
      s = nn :: nb :: w.mem trieLen :: P.addr "create_receipt@6.after" :: cum :: nb :: nn :: S ∧
      w' = ((w.nextIf (127 < cum)).nextIf (55 < (logsRlp ls).length)).app (typeWords (w.mem 0x900000000) ++ receiptWords w (receiptPay cum ls) status cum ls) := by
    have hn : (rlpNum cum).length ≤ 33 := by rw [rlpNum_length_eq hc]; split <;> omega
    rw [b_create_receipt_1_finish]
    kexec [m_add_const]
    rw [wadd_small (a := (rlpNum cum).length) (by omega), wadd_small (by omega), exec_load_global (by decide), nextIf_mem, show w.mem 0x500000029 = _ from h.payload]
    kexec []
    refine (run_rlp_len hP.rlps hP.has (L := "create_receipt@3.large") (A := "create_receipt@4.after") (F := "create_receipt@3.finish") (cont := b_create_receipt_3_finish)
      (List.mem_of_getElem? (i := 6) rfl) (List.mem_of_getElem? (i := 7) rfl) (List.mem_of_getElem? (i := 8) rfl) (by omega)
      (by rw [nextIf_inp]; exact hi _ (by split <;> decide)) (H := True) ?_).mono (fun hh => ⟨hh.2, trivial⟩) fun _ _ => id
    change Returns P _ (exec P b_create_receipt_3_finish _ ((w.nextIf (127 < cum)).nextIf (55 < (logsRlp ls).length))) _ _
    have hh : (rlpHeader 0xc0 (logsRlp ls).length).length ≤ 33 := by
      have := beMin_le32 (n := (logsRlp ls).length) (by omega)
      unfold rlpHeader; split <;> simp only [List.length_cons, List.length_nil] <;> omega
    have := run_receipt_type (S := S) (status := status) (cum := cum) (nb := nb) (nn := nn) (cum' := cum) (nb' := nb)
      (w := (w.nextIf (127 < cum)).nextIf (55 < (logsRlp ls).length)) (ls := ls) (pay := receiptPay cum ls) hP
      ⟨by rw [nextIf_mem, nextIf_mem]; exact h.count, by rw [nextIf_mem, nextIf_mem]; exact h.places, fun i hi => by rw [nextIf_mem, nextIf_mem]; exact h.records i hi,
        by rw [nextIf_mem, nextIf_mem]; exact h.payload⟩ hk hd (by rw [nextIf_mem, nextIf_mem]; exact hb) (by rw [nextIf_mem, nextIf_mem]; exact hs)
      ((rlpHeader 0xc0 (logsRlp ls).length).length + (logsRlp ls).length) (259 + ((rlpNum cum).length + 1)) (by
        rw [wadd_small (by omega), receiptPay, rlpList, List.length_append]; omega)
    refine .of this (.ret ⟨?_, ?_⟩)
    · rw [nextIf_mem, nextIf_mem]
    · simp only [receiptWords, World.bloomBytes, cellsAt, nextIf_mem]
  renter hP.has in receiptCode
  rw [b_process_receipt_after_bloom]
  by_cases h1 : 127 < cum
  · kexec [m_gt_const]
    rw [if_neg (by omega)]
    renter hP.has in receiptCode
    rw [b_create_receipt_1_medium]
    kexec []
    refine ((run_num_bytes hP.rlps (by omega) hc (hi 0 (by decide))).mono (fun hh => hh.1 h1) fun _ _ => id).andThen ?_
    rintro s w' ⟨rfl, rfl⟩
    renter hP.has in receiptCode
    rw [b_create_receipt_2_after]
    kexec [m_increment, m_add_const]
    rw [wadd_small (by omega)]
    rw [rlpNum_length_eq hc, if_pos h1] at hfin
    have e : w.nextIf (127 < cum) = w.next := if_pos h1
    rw [e] at hfin ⊢
    exact hfin
  · kexec [m_gt_const]
    rw [if_pos (by omega)]
    renter hP.has in receiptCode
    rw [rlpNum_length_eq hc, if_neg h1] at hfin
    have e : w.nextIf (127 < cum) = w := if_neg h1
    rw [e] at hfin ⊢
    exact hfin

/-- What is stored for a transaction: its type if it has one, the length of the RLP, the status, the cumulative gas, the
filter, the length of the RLP of the logs, their number and their records. -/
def receiptRecord (t status cum : Nat) (F : List Nat) (ls : List LogItem) : List Nat :=
  typeWords t ++ ([receiptPay cum ls, status, cum] ++ F ++ [(logsRlp ls).length, ls.length] ++ logsRecords ls)

/-- Every cell of the filter is a byte. -/
def World.BloomOk (w : World) : Prop := ∀ i < 256, w.mem (0x1700000000 + i) < 256

theorem bloomSet_ok {m : Nat} (h : w.BloomOk) : (w.bloomSet m).BloomOk := by
  intro i hi
  rw [World.bloomSet]
  by_cases e : 0x1700000000 + i = 0x1700000000 + (255 - m / 8)
  · rw [e, set_same]
    exact Nat.or_lt_two_pow (n := 8) (h _ (by omega)) (Nat.pow_lt_pow_right (by decide) (Nat.mod_lt _ (by decide)))
  · rw [set_ne e]; exact h i hi

theorem bloomAll_ok {es : List (List Nat)} (he : ∀ e ∈ es, e.length ≤ 32) (h : w.BloomOk) : (w.bloomAll P es).BloomOk := by
  induction es generalizing w with
  | nil => exact h
  | cons e es ih =>
    have h1 := he e (.head _)
    refine ih (w := w.bloomAdd P e) (fun e' h' => he e' (.tail _ h')) (bloomSet_ok (bloomSet_ok (bloomSet_ok fun i hi => ?_)))
    simp only [World.put]
    rw [if_neg (by omega)]; exact h i hi

/-- The logs of the receipt: none if the transaction failed. -/
def receiptLogs (status : Nat) (ls : List LogItem) : List LogItem := if status = 0 then [] else ls

theorem run_receipt_start (hP : P.Receipts) {ls : List LogItem} {status left cum nb nn : Nat} (h : LogsAre w ls) (hk : ls.length < 2 ^ 32) (hd : (logsRecords ls).length ≤ 2 ^ 32)
    (hg : left ≤ w.mem 0x900000006) (hL : w.mem 0x900000006 < 2 ^ 256) (hc : cum + (w.mem 0x900000006 - left) < 2 ^ 256) :
    ∃ w', Reaches P (.goto (P.addr "process_receipt") (status :: left :: cum :: nb :: nn :: S) w)
        (.goto (P.addr "process_receipt_after_bloom") (status :: (cum + (w.mem 0x900000006 - left)) :: nb :: nn :: S) w') ∧
      LogsKept w' (receiptLogs status ls) ∧ w'.inp = w.inp ∧ (w.BloomOk → w'.BloomOk) ∧ w'.mem trieLen = w.mem trieLen ∧ w'.mem 0x900000000 = w.mem 0x900000000 ∧
      (∀ m < 2048, w'.bloomBit m = true ↔ w.bloomBit m = true ∨ ∃ e ∈ bloomEntries (receiptLogs status ls), ∃ i < 3, bloomIdx (P.hash e) i = m) := by
  have hB : P.Blooms := ⟨hP.rlps.copies, hP.blooms⟩
  have key : ∀ (v : World) (l : List LogItem), LogsKept v l → l.length < 2 ^ 32 → (logsRecords l).length ≤ 2 ^ 32 → ∀ ret T,
      Reaches P (.goto (P.addr "logs_bloom") (ret :: T) v) (.goto ret T (v.bloomAll P (bloomEntries l))) ∧ LogsKept (v.bloomAll P (bloomEntries l)) l := by
    intro v l hv h1 h2 ret T
    have hm : ∀ {a}, ¬ BloomCell a → (v.bloomAll P (bloomEntries l)).mem a = v.mem a := fun ha => bloomAll_mem bloomEntries_len ha
    refine ⟨?_, ?_, fun i hi => ?_, fun i hi => ?_, ?_⟩
    · enter hP.blooms in bloomCode
      rw [b_logs_bloom, exec_load_global (by decide)]
      kexec []
      rw [show v.mem 0x500000027 = _ from hv.count]
      exact run_bloom_logs (pre := []) hB (by simp) h1 h2 (fun i hi => hv.places i hi) hv.records
    · rw [hm (by simp only [BloomCell, logsLen]; omega)]; exact hv.count
    · rw [hm (by simp only [BloomCell]; omega)]; exact hv.places i hi
    · rw [hm (by simp only [BloomCell]; omega)]; exact hv.records i hi
    · rw [hm (by simp only [BloomCell, logsPayload]; omega)]; exact hv.payload
  have hm : ∀ {v : World} {l a}, ¬ BloomCell a → (v.bloomAll P (bloomEntries l)).mem a = v.mem a := fun ha => bloomAll_mem bloomEntries_len ha
  have hst : ∀ o, Reaches P (exec P (m_jumpi (.lab "failed_receipt") ++ b_process_receipt_after_status) ((if status = 0 then 1 else 0) :: status :: (cum + (w.mem 0x900000006 - left)) :: nb :: nn :: S) w) o →
      Reaches P (.goto (P.addr "process_receipt") (status :: left :: cum :: nb :: nn :: S) w) o := by
    intro o ho
    enter hP.has in receiptCode
    rw [b_process_receipt, m_compute_cumulative_gas]
    kexec []
    rw [exec_load_txn (by decide)]
    kexec []
    rw [if_pos hg, wsub_small hg hL, wadd_small (by omega), Nat.add_comm _ cum]
    revert ho
    kexec []
    by_cases h0 : status = 0 <;> simp only [h0, ne_eq, not_true, not_false_eq_true, if_true, if_false] <;> exact id
  by_cases h0 : status = 0
  · subst h0
    have hk0 : LogsKept ((w.set logsLen 0).set logsPayload 0) [] :=
      ⟨by rw [set_ne (by decide), set_same]; rfl, fun _ h => absurd h (Nat.not_lt_zero _), fun _ h => absurd h (Nat.not_lt_zero _), by rw [set_same]; rfl⟩
    have hw : ∀ a, a ≠ logsLen → a ≠ logsPayload → ((w.set logsLen 0).set logsPayload 0).mem a = w.mem a := fun a h1 h2 => by rw [set_ne h2, set_ne h1]
    obtain ⟨k1, k2⟩ := key _ _ hk0 (by decide) (by decide) (P.addr "process_receipt_after_bloom") (0 :: (cum + (w.mem 0x900000006 - left)) :: nb :: nn :: S)
    refine ⟨_, (hst _ ?_), k2, bloomAll_ctx.2, fun hb => bloomAll_ok bloomEntries_len fun i hi => ?_, ?_, ?_, fun m hm => ?_⟩
    · kexec [ne_eq, not_true, not_false_eq_true, if_true, if_false]
      enter hP.has in receiptCode
      rw [b_failed_receipt]
      kexec []
      rw [exec_store_global (by decide)]
      kexec []
      rw [exec_store_global (by decide)]
      kexec []
      enter hP.has in receiptCode
      rw [b_process_receipt_after_status]
      kexec []
      exact k1
    · rw [hw _ (by simp only [logsLen]; omega) (by simp only [logsPayload]; omega)]; exact hb i hi
    · rw [hm (by simp only [BloomCell, trieLen]; omega), hw _ (by decide) (by decide)]
    · rw [hm (by simp only [BloomCell]; omega), hw _ (by decide) (by decide)]
    · rw [bloomAll_bit bloomEntries_len hm]
      have : ((w.set logsLen 0).set logsPayload 0).bloomBit m = w.bloomBit m := by
        rw [World.bloomBit, hw _ (by simp only [logsLen]; omega) (by simp only [logsPayload]; omega)]; rfl
      rw [this]; rfl
  · have e : receiptLogs status ls = ls := if_neg h0
    obtain ⟨k1, k2⟩ := key _ _ h.kept hk hd (P.addr "process_receipt_after_bloom") (status :: (cum + (w.mem 0x900000006 - left)) :: nb :: nn :: S)
    rw [e]
    refine ⟨_, (hst _ ?_), k2, bloomAll_ctx.2, fun hb => bloomAll_ok bloomEntries_len hb, ?_, ?_, fun m hm => bloomAll_bit bloomEntries_len hm⟩
    · rw [b_process_receipt_after_status]
      kexec [h0, ne_eq, not_true, not_false_eq_true, if_true, if_false]
      exact k1
    · exact hm (by simp only [BloomCell, trieLen]; omega)
    · exact hm (by simp only [BloomCell]; omega)

/-- The receipt of a transaction. -/
theorem C138_receipt (hP : P.Receipts) {ls : List LogItem} {status left cum nb nn : Nat} (h : LogsAre w ls) (hk : ls.length < 2 ^ 32) (hd : (logsRecords ls).length ≤ 2 ^ 32)
    (hl : (logsRlp ls).length < 2 ^ 64) (hb : w.BloomOk) (hs : w.mem trieLen + (262 + (logsRecords ls).length) ≤ 2 ^ 32) (hi : ∀ i < 2, w.inp i < 2 ^ 256)
    (hg : left ≤ w.mem 0x900000006) (hL : w.mem 0x900000006 < 2 ^ 256) (hc : cum + (w.mem 0x900000006 - left) < 2 ^ 256) :
    Returns P (ReceiptHints w (cum + (w.mem 0x900000006 - left)) (receiptLogs status ls)) (.goto (P.addr "process_receipt") (status :: left :: cum :: nb :: nn :: S) w)
      (P.addr "mpt_insert_receipt_trie") fun s w' =>
      s = nn :: nb :: w.mem trieLen :: P.addr "create_receipt@6.after" :: (cum + (w.mem 0x900000006 - left)) :: nb :: nn :: S ∧
      ∃ F, F.length = 256 ∧
        (∀ m < 2048, (F.getD (255 - m / 8) 0).testBit (m % 8) = true ↔ w.bloomBit m = true ∨ ∃ e ∈ bloomEntries (receiptLogs status ls), ∃ i < 3, bloomIdx (P.hash e) i = m) ∧
        HasBytes w' (0xc00000000 + w.mem trieLen) (receiptRecord (w.mem 0x900000000) status (cum + (w.mem 0x900000006 - left)) F (receiptLogs status ls)) ∧
        w'.mem trieLen = w.mem trieLen + (receiptRecord (w.mem 0x900000000) status (cum + (w.mem 0x900000006 - left)) F (receiptLogs status ls)).length := by
  obtain ⟨v, h1, h2, h3, h4, h5, h6, h7⟩ := run_receipt_start (S := S) (status := status) (nb := nb) (nn := nn) hP h hk hd hg hL hc
  have e1 : (receiptLogs status ls).length ≤ ls.length := by unfold receiptLogs; split <;> simp
  have e2 : (logsRecords (receiptLogs status ls)).length ≤ (logsRecords ls).length := by unfold receiptLogs; split <;> simp [logsRecords]
  have e3 : (logsRlp (receiptLogs status ls)).length ≤ (logsRlp ls).length := by unfold receiptLogs; split <;> simp [logsRlp]
  generalize cum + (w.mem 0x900000006 - left) = g at *
  refine .of h1 ((run_receipt_pay (S := S) hP h2 (by omega) (by omega) (h4 hb) (by omega) hc (by rw [h3]; exact hi) (by omega)).mono ?_ ?_)
  · unfold ReceiptHints
    rw [nextIf_inp, nextIf_inp, h3]; exact id
  · rintro s w' ⟨rfl, rfl⟩
    refine ⟨by rw [h5], v.bloomBytes, cellsAt_length, fun m hm => ?_, ?_, ?_⟩
    · rw [← h7 m hm, World.bloomBit, World.bloomBytes, cellsAt, List.getD_eq_getElem?_getD, List.getElem?_map, List.getElem?_range (by omega)]
      rfl
    · have := app_here (w := (v.nextIf (127 < g)).nextIf (55 < (logsRlp (receiptLogs status ls)).length)) (l := receiptRecord (w.mem 0x900000000) status g v.bloomBytes (receiptLogs status ls))
      rw [nextIf_mem, nextIf_mem, h5] at this
      rw [h6]
      exact this
    · rw [app_len, nextIf_mem, nextIf_mem, h5, h6]; rfl

/-- More gas left than there was is refused. -/
theorem C138_refused (hP : P.Receipts) {status left cum : Nat} (hg : w.mem 0x900000006 < left) :
    Reaches P (.goto (P.addr "process_receipt") (status :: left :: cum :: S) w) .panic := by
  enter hP.has in receiptCode
  rw [b_process_receipt, m_compute_cumulative_gas]
  kexec []
  rw [exec_load_txn (by decide)]
  kexec []
  rw [if_neg (by omega)]
  exact rlp_panic hP.rlps

/-- When the receipt is in the trie the filter is cleared and the cumulative gas returned; nothing else changes. -/
theorem C138_cleared (hP : P.Receipts) {cum nb nn : Nat} :
    ∃ w', Reaches P (.goto (P.addr "create_receipt@6.after") (cum :: nb :: nn :: ret :: S) w) (.goto ret (cum :: S) w') ∧
      ∀ a, w'.mem a = if 0x1700000000 ≤ a ∧ a < 0x1700000100 then 0 else w.mem a := by
  apply Exists.intro
  apply And.intro
  · enter hP.has in receiptCode
    rw [b_create_receipt_6_after]
    kexec [rep]
    iterate 8
      rw [exec_mstore32 ⟨by decide, by simp only [SegOk]; decide, by decide⟩]
      kexec []
    exact .refl _
  · intro a
    simp only [storeBytes_mem]
    have hz : ∀ k, dig 0 k = 0 := fun k => by simp [dig]
    simp only [hz]
    repeat' split
    all_goals first | rfl | omega

def receiptsCode : List (String × List I) := receiptCode ++ bloomCode ++ rlpCode ++ copyCode ++ [("panic", b_panic)]

def receiptsProg : Prog := tableProg receiptsCode fun l => l.sum * 2 ^ 240 + l.sum * 2 ^ 228 + 5 * 2 ^ 208

theorem receiptsProg_has : receiptsProg.Has receiptsCode := tableProg_has _ _ (by decide +kernel) (by decide +kernel) (by decide +kernel)

theorem receiptsProg_ok : receiptsProg.Receipts :=
  ⟨⟨tableProg_copies _ _ (by decide +kernel) (by decide +kernel) (by decide +kernel) (by simp +contextual [receiptsCode]),
    receiptsProg_has.mono (by simp +contextual [receiptsCode]), receiptsProg_has.mono (by simp +contextual [receiptsCode])⟩,
    receiptsProg_has.mono (by simp +contextual [receiptsCode]), receiptsProg_has.mono (by simp +contextual [receiptsCode])⟩

/-- One log of the account 7 with the topic 1, of a transaction of type 2 with 100000 gas. -/
def receiptWorld : World :=
  ⟨fun a => if a = 0x900000000 then 2 else if a = 0x900000006 then 100000 else bloomWorld.mem a, 1, fun i => if i = 0 then 17 else 6⟩

theorem receiptWorld_logs : LogsAre receiptWorld [⟨7, [1], []⟩] :=
  ⟨by decide +kernel, by decide +kernel, by unfold HasBytes; decide +kernel, by decide +kernel, by decide +kernel⟩

/-- With 40000 gas left, after transactions that used 21000, the receipt says 81000 and has the log and its bits; the
length of its RLP is 1 + 4 + 259 + 60. -/
example : ∃ w' F, Reaches receiptsProg (.goto (receiptsProg.addr "process_receipt") [1, 40000, 21000, 3, 2, 77] receiptWorld)
      (.goto (receiptsProg.addr "mpt_insert_receipt_trie") [2, 3, 0, receiptsProg.addr "create_receipt@6.after", 81000, 3, 2, 77] w') ∧
    (F.getD (255 - 112 / 8) 0).testBit (112 % 8) = true ∧
    HasBytes w' 0xc00000000 ([2, 324, 1, 81000] ++ F ++ [58, 1] ++ [56, 7, 1, 1, 0]) := by
  obtain ⟨s, w', r, rfl, F, -, hF, hw, -⟩ := (C138_receipt (w := receiptWorld) (S := [77]) (status := 1) (left := 40000) (cum := 21000) (nb := 3) (nn := 2) receiptsProg_ok receiptWorld_logs
    (by decide) (by decide +kernel) (by decide +kernel) (by unfold World.BloomOk; decide +kernel) (by decide +kernel) (by decide +kernel) (by decide +kernel) (by decide +kernel) (by decide +kernel)).sure
    (by unfold ReceiptHints; decide +kernel)
  refine ⟨w', F, r, (hF _ (by decide)).2 (.inr ⟨beFix 20 7, .head _, 1, by decide, by decide +kernel⟩), ?_⟩
  have e : receiptRecord 2 1 81000 F [⟨7, [1], []⟩] = [2, 324, 1, 81000] ++ F ++ [58, 1] ++ [56, 7, 1, 1, 0] := by
    have h1 : receiptPay 81000 [⟨7, [1], []⟩] = 324 := by decide +kernel
    have h2 : (logsRlp [⟨7, [1], []⟩]).length = 58 := by decide +kernel
    have h3 : logsRecords [⟨7, [1], []⟩] = [56, 7, 1, 1, 0] := by decide +kernel
    rw [receiptRecord, h1, h2, h3]; rfl
  rw [← e]; exact hw

/-- More gas left than there was. -/
example : Reaches receiptsProg (.goto (receiptsProg.addr "process_receipt") [1, 100001, 21000, 3, 2, 77] receiptWorld) .panic :=
  C138_refused (S := [3, 2, 77]) receiptsProg_ok (by decide +kernel)

/-- A filter with a bit: it is cleared, and 81000 returned. -/
example : ∃ w', Reaches receiptsProg (.goto (receiptsProg.addr "create_receipt@6.after") [81000, 3, 2, 77] (receiptWorld.bloomSet 112)) (.goto 77 [81000] w') ∧
    (receiptWorld.bloomSet 112).bloomBit 112 = true ∧ w'.bloomBit 112 = false := by
  obtain ⟨w', h1, h2⟩ := C138_cleared (w := receiptWorld.bloomSet 112) (ret := 77) (S := []) (cum := 81000) (nb := 3) (nn := 2) receiptsProg_ok
  exact ⟨w', h1, by decide +kernel, by rw [World.bloomBit, h2, if_pos (by decide)]; decide⟩

end Verif.Kasm
