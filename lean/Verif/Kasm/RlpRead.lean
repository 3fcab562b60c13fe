import Verif.Kasm.Rlp

/-!
RLP in the kernel: headers written before their contents, strings copied from memory, and reading (`asm/rlp`).
-/

namespace Verif.Kasm

variable {P : Prog} {S : List Nat} {w w' : World} {ret a v n : Nat}

/-- `asm/rlp/encode.asm:166-215`. -/
theorem run_prepend (hP : P.Rlps) (ha : Span a ((rlpHeader 0xc0 n).length + n)) (hi : w.inp 0 < 2 ^ 256) :
    Returns P (55 < n → w.inp 0 = bits n)
      (.goto (P.addr "prepend_rlp_list_prefix") ((a + (rlpHeader 0xc0 n).length + n) :: (a + (rlpHeader 0xc0 n).length) :: ret :: S) w) ret fun s w' =>
      s = a :: ((rlpHeader 0xc0 n).length + n) :: S ∧ w' = (if 55 < n then w.next else w).put a (rlpHeader 0xc0 n) := by
  have hl := ha.lt
  have ha1 := ha.1
  renter hP.rlp in rlpCode
  rw [b_prepend_rlp_list_prefix]
  kexec [m_gt_const, m_increment, m_add_const, m_decrement, m_sub_const]
  rw [wsub_small (a := a + (rlpHeader 0xc0 n).length + n) (by omega) (by omega), Nat.add_sub_cancel_left]
  by_cases h : 55 < n
  · have hn : n < 2 ^ 256 := by omega
    have h32 := beMin_le32 hn
    have h1 := beMin_ne (n := n) (by omega)
    rw [if_neg (by omega)]
    rw [rlpHeader_long h, List.length_cons] at ha hl ⊢
    renter hP.rlp in rlpCode
    rw [b_prepend_rlp_list_prefix_big]
    kexec []
    refine ((run_num_bytes hP (by omega) hn hi).mono (fun hh => hh h) fun _ _ => id).andThen ?_
    rintro s w' ⟨rfl, rfl⟩
    renter hP.rlp in rlpCode
    rw [b_encode_3_after]
    kexec [m_add_const, m_increment]
    rw [wsub_small (a := a + ((beMin n).length + 1)) (by omega) (by omega), wsub_small (by omega) (by omega),
      show a + ((beMin n).length + 1) - 1 - (beMin n).length = a by omega, wadd_small (by omega), exec_set_at ha]
    kexec []
    rw [wadd_small (by omega), Nat.add_comm 1 a]
    refine .of (run_unpacking hP.copies h1 h32 ((ha.one (by omega)).le (by omega))) ?_
    renter hP.rlp in rlpCode
    rw [b_prepend_rlp_list_prefix_big_done_writing_len]
    kexec []
    rw [put_store, show (w.next.put a [247 + (beMin n).length]).put (a + 1) (beMin n) = w.next.put a ((247 + (beMin n).length) :: beMin n) from
      put_put (l := [247 + (beMin n).length]), if_pos h, wsub_small (by omega) (by omega)]
    exact .ret ⟨by congr 2; omega, rfl⟩
  · rw [if_pos (by omega)]
    rw [rlpHeader_short (by omega)] at ha hl ⊢
    simp only [List.length_singleton] at ha hl ⊢
    rw [wsub_small (a := a + 1) (by omega) (by omega), Nat.add_sub_cancel, wadd_small (by omega), exec_set_at ha]
    kexec []
    rw [wsub_small (a := a + 1) (by omega) (by omega), Nat.add_sub_cancel, wadd_small (by omega), if_neg h]
    exact .ret ⟨rfl, rfl⟩

theorem put_cells {l : List Nat} {r : Nat} (h : a + l.length ≤ r ∨ r + n ≤ a) : cellsAt (w.put a l) r n = cellsAt w r n := by
  refine List.map_congr_left fun i hi => ?_
  have hi := List.mem_range.1 hi
  simp only [World.put]
  rw [if_neg (by omega)]

theorem next_cells {r : Nat} : cellsAt w.next r n = cellsAt w r n := rfl

theorem cells_one {r : Nat} : cellsAt w r 1 = [w.mem r] := rfl

/-- `asm/rlp/encode_rlp_string.asm:4-77`. -/
theorem run_encode_string (hP : P.Rlps) {r : Nat} (ha : Span a ((rlpStr (cellsAt w r n)).length + 1)) (hr : Span r n)
    (hd : a + (rlpStr (cellsAt w r n)).length ≤ r ∨ r + n ≤ a) (hb : ∀ i < n, w.mem (r + i) < 256) (hi : w.inp 0 < 2 ^ 256) :
    Returns P (55 < n → w.inp 0 = bits n) (.goto (P.addr "encode_rlp_string") (a :: r :: n :: ret :: S) w) ret fun s w' =>
      s = (a + (rlpStr (cellsAt w r n)).length) :: S ∧ w' = (if 55 < n then w.next else w).put a (rlpStr (cellsAt w r n)) := by
  have hl := ha.lt
  have hr2 := hr.lt
  have hc : (cellsAt w r n).length = n := cellsAt_length
  renter hP.rlp in rlpCode
  rw [b_encode_rlp_string]
  kexec [m_gt_const, m_eq_const, m_lt_const]
  rw [exec_mload hr.2.1, hr.key]
  kexec []
  by_cases h1 : n = 1 ∧ w.mem r < 128
  · obtain ⟨rfl, h1⟩ := h1
    have e : rlpStr (cellsAt w r 1) = [w.mem r] := by rw [cells_one, rlpStr_one, if_pos h1]
    rw [if_neg (by rw [wgt, if_pos h1]; decide)]
    rw [e] at ha hl ⊢
    simp only [List.length_singleton] at ha hl ⊢
    renter hP.rlp in rlpCode
    rw [b_encode_rlp_string_small_single_byte]
    kexec [m_increment, m_add_const]
    rw [exec_mload hr.2.1, hr.key]
    kexec []
    rw [exec_set_at ha]
    kexec []
    rw [wadd_small (by omega), Nat.add_comm 1 a]
    exact .ret ⟨rfl, rfl⟩
  · have e0 : wmul (wgt 128 (w.mem r)) (weq 1 n) = 0 := by
      by_cases hn : n = 1
      · rw [wgt, if_neg (fun h => h1 ⟨hn, h⟩), wmul, Nat.zero_mul]
      · rw [weq, if_neg (fun h => hn h.symm), wmul, Nat.mul_zero]
    rw [if_pos e0]
    by_cases h : 55 < n
    · have e := rlpStr_long (s := cellsAt w r n) (by omega)
      rw [hc, rlpHeader_long h] at e
      have el : (rlpStr (cellsAt w r n)).length = (beMin n).length + 1 + n := by
        rw [e, List.length_append, List.length_cons, hc]
      have hn : n < 2 ^ 256 := by omega
      have h32 := beMin_le32 hn
      have hne := beMin_ne (n := n) (by omega)
      rw [el] at ha hl hd
      rw [el, if_neg (by omega), if_pos h]
      renter hP.rlp in rlpCode
      rw [b_encode_rlp_string_large]
      kexec []
      refine ((run_num_bytes hP (by omega) hn hi).mono (fun hh => hh h) fun _ _ => id).andThen ?_
      rintro s w' ⟨rfl, rfl⟩
      renter hP.rlp in rlpCode
      rw [b_encode_rlp_string_1_after]
      kexec [m_add_const, m_increment]
      rw [wadd_small (by omega), exec_set_at ha]
      kexec []
      rw [wadd_small (by omega), Nat.add_comm 1 a]
      refine .of (run_unpacking hP.copies hne h32 ((ha.one (by omega)).le (by omega))) ?_
      renter hP.rlp in rlpCode
      rw [b_encode_rlp_string_large_after_writing_len]
      kexec []
      rw [put_store, show (w.next.put a [183 + (beMin n).length]).put (a + 1) (beMin n) = w.next.put a ((183 + (beMin n).length) :: beMin n) from
        put_put (l := [183 + (beMin n).length]), wadd_small (by omega)]
      have hh : (w.next.put a ((183 + (beMin n).length) :: beMin n)).copy (a + 1 + (beMin n).length) r n
          = w.next.put a (rlpStr (cellsAt w r n)) := by
        rw [put_copy, put_cells (by rw [List.length_cons]; omega), next_cells,
          show a + 1 + (beMin n).length = a + ((183 + (beMin n).length) :: beMin n).length by rw [List.length_cons]; omega, put_put, e]
      refine .of (run_memcpy_bytes hP.copies n _ r _ ?_ hr ?_ ?_) ?_
      · rw [Nat.add_assoc]
        exact (ha.later (k := 1 + (beMin n).length) (by omega)).le (by omega)
      · omega
      · intro i hi'
        simp only [World.put]
        rw [if_neg (by rw [List.length_cons]; omega)]
        exact hb i hi'
      · rw [hh]
        exact .ret ⟨by congr 1; omega, rfl⟩
    · have e : rlpStr (cellsAt w r n) = (0x80 + n) :: cellsAt w r n := by
        by_cases hn : n = 1
        · subst hn
          rw [cells_one, rlpStr_one, if_neg (fun h => h1 ⟨rfl, h⟩)]
        · rw [rlpStr_short (by omega) (by omega), hc]
      have el : (rlpStr (cellsAt w r n)).length = n + 1 := by rw [e, List.length_cons, hc]
      rw [el] at ha hl hd
      rw [el, if_pos (by omega), if_neg h, b_encode_rlp_string_small]
      kexec [m_add_const, m_increment]
      rw [wadd_small (by omega), exec_set_at ha]
      kexec []
      rw [wadd_small (by omega), wadd_small (by omega), Nat.add_comm 1 a]
      have hh : (w.put a [128 + n]).copy (a + 1) r n = w.put a (rlpStr (cellsAt w r n)) := by
        rw [put_copy, put_cells (by simp only [List.length_singleton]; omega), e]
        exact put_put (l := [128 + n])
      refine .of (run_memcpy_bytes hP.copies n _ r _ ?_ hr ?_ ?_) ?_
      · exact (ha.later (k := 1) (by omega)).le (by omega)
      · omega
      · intro i hi'
        simp only [World.put]
        rw [if_neg (by simp only [List.length_singleton]; omega)]
        exact hb i hi'
      · rw [hh]
        exact .ret ⟨by congr 1; omega, rfl⟩

/-! ### Reading -/

/-- The cells from `a` on are `l`. -/
def HasBytes (w : World) (a : Nat) (l : List Nat) : Prop := ∀ i, i < l.length → w.mem (a + i) = l.getD i 0

theorem HasBytes.bytes {l : List Nat} (h : HasBytes w a l) (hb : ∀ b ∈ l, b < 256) : bytesAt w a l.length = l := by
  refine List.ext_getElem (by simp [bytesAt]) fun i h1 h2 => ?_
  simp only [bytesAt, List.getElem_map, List.getElem_range]
  rw [h i h2, List.getD_eq_getElem?_getD, List.getElem?_eq_getElem h2, Option.getD_some]
  exact Nat.mod_eq_of_lt (hb _ (List.getElem_mem h2))

theorem HasBytes.left {l l' : List Nat} (h : HasBytes w a (l ++ l')) : HasBytes w a l := by
  intro i hi
  rw [h i (by rw [List.length_append]; omega), List.getD_eq_getElem?_getD, List.getD_eq_getElem?_getD, List.getElem?_append_left hi]

theorem HasBytes.right {l l' : List Nat} (h : HasBytes w a (l ++ l')) : HasBytes w (a + l.length) l' := by
  intro i hi
  rw [Nat.add_assoc, h _ (by rw [List.length_append]; omega), List.getD_eq_getElem?_getD, List.getD_eq_getElem?_getD,
    List.getElem?_append_right (by omega), Nat.add_sub_cancel_left]

theorem HasBytes.head {b : Nat} {l : List Nat} (h : HasBytes w a (b :: l)) : w.mem a = b := h 0 (by simp)

theorem HasBytes.tail {b : Nat} {l : List Nat} (h : HasBytes w a (b :: l)) : HasBytes w (a + 1) l := HasBytes.right (l := [b]) h

/-- `asm/rlp/decode.asm:133-146`. -/
theorem run_decode_int (hP : P.Rlps) (hv : v < 2 ^ 256) (ha : Span a (beMin v).length) (hm : HasBytes w a (beMin v)) :
    Reaches P (.goto (P.addr "decode_int_given_len") (a :: (beMin v).length :: ret :: S) w)
      (.goto ret ((a + (beMin v).length) :: v :: S) w) := by
  have hl := ha.lt
  have h32 := beMin_le32 hv
  enter hP.rlp in rlpCode
  rw [b_decode_int_given_len]
  kexec []
  by_cases h0 : (beMin v).length = 0
  · have : v = 0 := by
      by_cases hz : v = 0
      · exact hz
      · have := beMin_ne hz; omega
    subst this
    rw [h0, if_neg (by simp)]
    enter hP.rlp in rlpCode
    rw [b_empty_int]
    kexec []
    exact .refl _
  · rw [if_pos h0, wadd_small (by omega), exec_mload32 ⟨ha.2.1, h32, ha.2.2⟩, ha.key, hm.bytes (beMin_lt v), beVal_beMin]
    kexec []
    exact .refl _

/-- `asm/rlp/decode.asm:14-51`: the contents of a string that is not one byte below 128 are after a header. -/
theorem run_decode_header (hP : P.Rlps) (hn : n < 2 ^ 256) (ha : Span a (rlpHeader 0x80 n).length) (hm : HasBytes w a (rlpHeader 0x80 n)) :
    Reaches P (.goto (P.addr "decode_rlp_string_len") (a :: ret :: S) w) (.goto ret ((a + (rlpHeader 0x80 n).length) :: n :: S) w) := by
  have hl := ha.lt
  enter hP.rlp in rlpCode
  rw [b_decode_rlp_string_len]
  kexec [m_gt_const]
  rw [exec_mload ha.2.1, ha.key]
  kexec []
  by_cases h : 55 < n
  · have h32 := beMin_le32 hn
    have hne := beMin_ne (n := n) (by omega)
    rw [rlpHeader_long h] at ha hm hl ⊢
    simp only [List.length_cons] at ha hl ⊢
    rw [hm.head, if_neg (by omega)]
    enter hP.rlp in rlpCode
    rw [b_decode_rlp_string_len_large]
    kexec [m_sub_const, m_increment, m_add_const]
    rw [wsub_small (by omega) (by omega), wadd_small (by omega), Nat.add_comm 1 a, show 128 + 55 + (beMin n).length - 183 = (beMin n).length by omega]
    refine (run_decode_int hP hn ((ha.one (by omega)).le (by omega)) hm.tail).trans ?_
    rw [Nat.add_assoc, Nat.add_comm 1]
    exact .refl _
  · rw [rlpHeader_short (by omega)] at ha hm hl ⊢
    simp only [List.length_singleton] at ha hl ⊢
    rw [hm.head, if_pos (by omega), if_neg (by omega)]
    enter hP.rlp in rlpCode
    rw [b_decode_rlp_string_len_medium]
    kexec [m_sub_const, m_increment, m_add_const]
    rw [wsub_small (by omega) (by omega), wadd_small (by omega), Nat.add_comm 1 a, Nat.add_sub_cancel_left]
    exact .refl _

/-- A byte below 128 is its own encoding. -/
theorem run_decode_byte (hP : P.Rlps) (ha : Span a 1) (hm : w.mem a < 128) :
    Reaches P (.goto (P.addr "decode_rlp_string_len") (a :: ret :: S) w) (.goto ret (a :: 1 :: S) w) := by
  enter hP.rlp in rlpCode
  rw [b_decode_rlp_string_len]
  kexec [m_gt_const]
  rw [exec_mload ha.2.1, ha.key]
  kexec []
  rw [if_pos (by omega), if_pos (by omega)]
  exact .refl _

theorem rlpStr_cases (s : List Nat) : (∃ b, b < 128 ∧ s = [b] ∧ rlpStr s = [b]) ∨ rlpStr s = rlpHeader 0x80 s.length ++ s := by
  by_cases h1 : s.length = 1
  · obtain ⟨b, rfl⟩ := List.length_eq_one_iff.1 h1
    by_cases hb : b < 128
    · exact .inl ⟨b, hb, rfl, if_pos hb⟩
    · right; rw [rlpStr_one, if_neg hb]; rfl
  · right
    rw [rlpStr]
    rintro b rfl; exact h1 rfl

/-- `asm/rlp/decode.asm:14-51`: the string is then at the place, and of the length, given back. -/
theorem run_decode_string (hP : P.Rlps) {s : List Nat} (ha : Span a (rlpStr s).length) (hm : HasBytes w a (rlpStr s)) :
    ∃ b, b + s.length = a + (rlpStr s).length ∧ HasBytes w b s ∧
      Reaches P (.goto (P.addr "decode_rlp_string_len") (a :: ret :: S) w) (.goto ret (b :: s.length :: S) w) := by
  have hl := ha.lt
  rcases rlpStr_cases s with ⟨b, hb, rfl, e⟩ | e
  · rw [e] at ha hm ⊢
    exact ⟨a, rfl, hm, run_decode_byte hP ha (by rw [hm.head]; exact hb)⟩
  · rw [e, List.length_append] at ha hl ⊢
    rw [e] at hm
    exact ⟨a + (rlpHeader 0x80 s.length).length, by omega, hm.right, run_decode_header hP (by omega) (ha.le (by omega)) hm.left⟩

/-- `asm/rlp/decode.asm:68-72`. -/
theorem run_decode_scalar (hP : P.Rlps) (hv : v < 2 ^ 256) (ha : Span a ((rlpNum v).length + 1)) (hm : HasBytes w a (rlpNum v)) :
    Reaches P (.goto (P.addr "decode_rlp_scalar") (a :: ret :: S) w) (.goto ret ((a + (rlpNum v).length) :: v :: S) w) := by
  have hl := ha.lt
  have h32 := beMin_le32 hv
  enter hP.rlp in rlpCode
  rw [b_decode_rlp_scalar]
  kexec []
  obtain ⟨b, e, hb, h⟩ := run_decode_string (S := ret :: S) (ret := P.addr "decode_int_given_len") (s := beMin v) hP
    (ha.le (Nat.le_succ _)) hm
  refine h.trans ((run_decode_int hP hv ?_ hb).trans ?_)
  · rw [rlpNum] at ha
    rcases rlpStr_cases (beMin v) with ⟨x, hx, ex, e'⟩ | e'
    · rw [e', ex] at e
      simp only [List.length_singleton] at e
      obtain rfl : b = a := by omega
      rw [ex, List.length_singleton]; rw [e', List.length_singleton] at ha; exact ha.le (by omega)
    · rw [e', List.length_append] at ha e
      obtain rfl : b = a + (rlpHeader 0x80 (beMin v).length).length := by omega
      exact (ha.later (by omega)).le (by omega)
  · rw [show b + (beMin v).length = a + (rlpNum v).length from e]
    exact .refl _

/-- `asm/rlp/decode.asm:89-119`. -/
theorem run_decode_list (hP : P.Rlps) (hn : n < 2 ^ 256) (ha : Span a (rlpHeader 0xc0 n).length) (hm : HasBytes w a (rlpHeader 0xc0 n)) :
    Reaches P (.goto (P.addr "decode_rlp_list_len") (a :: ret :: S) w) (.goto ret ((a + (rlpHeader 0xc0 n).length) :: n :: S) w) := by
  have hl := ha.lt
  enter hP.rlp in rlpCode
  rw [b_decode_rlp_list_len]
  kexec [m_gt_const, m_increment, m_add_const, m_sub_const]
  rw [exec_mload ha.2.1, ha.key]
  kexec []
  by_cases h : 55 < n
  · have h32 := beMin_le32 hn
    have hne := beMin_ne (n := n) (by omega)
    rw [rlpHeader_long h] at ha hm hl ⊢
    simp only [List.length_cons] at ha hl ⊢
    rw [hm.head, if_neg (by omega)]
    enter hP.rlp in rlpCode
    rw [b_decode_rlp_list_len_big]
    kexec [m_sub_const]
    rw [wsub_small (by omega) (by omega), wadd_small (by omega), Nat.add_comm 1 a, show 192 + 55 + (beMin n).length - 247 = (beMin n).length by omega]
    refine (run_decode_int hP hn ((ha.one (by omega)).le (by omega)) hm.tail).trans ?_
    rw [Nat.add_assoc, Nat.add_comm 1]
    exact .refl _
  · rw [rlpHeader_short (by omega)] at ha hm hl ⊢
    simp only [List.length_singleton] at ha hl ⊢
    rw [hm.head, if_pos (by omega)]
    rw [wsub_small (by omega) (by omega), wadd_small (by omega), Nat.add_comm 1 a, Nat.add_sub_cancel_left]
    exact .refl _

/-! ### The next transaction number -/

theorem beVal_app (l l' : List Nat) : beVal (l ++ l') = beVal l * 256 ^ l'.length + beVal l' := by
  induction l' using snoc_rec with
  | nil => simp [beVal]
  | append_singleton l' b ih =>
    rw [← List.append_assoc, beVal_snoc, ih, beVal_snoc, List.length_append, List.length_singleton, Nat.pow_succ, Nat.add_mul, Nat.mul_assoc,
      Nat.add_assoc]

theorem rlpNum_val (h : 128 ≤ v) (hv : v < 2 ^ 256) : beVal (rlpNum v) = (0x80 + (beMin v).length) * 256 ^ (beMin v).length + v := by
  rw [rlpNum_large h hv, show (0x80 + (beMin v).length) :: beMin v = [0x80 + (beMin v).length] ++ beMin v from rfl, beVal_app, beVal_beMin]
  simp [beVal]

/-- `asm/rlp/increment_bounded_rlp.asm:4-31`. -/
theorem run_increment (hP : P.Rlps) (hn : n < 65535) :
    Reaches P (.goto (P.addr "increment_bounded_rlp") (beVal (rlpNum n) :: 2 * (rlpNum n).length :: ret :: S) w)
      (.goto ret (beVal (rlpNum (n + 1)) :: 2 * (rlpNum (n + 1)).length :: S) w) := by
  have l1 : ∀ {m}, 128 ≤ m → m < 256 → (beMin m).length = 1 := fun h h' => beMin_length 1 _ (by omega) (.inr (by omega))
  have l2 : ∀ {m}, 256 ≤ m → m < 65536 → (beMin m).length = 2 := fun h h' => beMin_length 2 _ (by omega) (.inr (by omega))
  have v1 : ∀ {m}, 128 ≤ m → m < 256 → beVal (rlpNum m) = 0x8100 + m ∧ (rlpNum m).length = 2 := by
    intro m h h'
    rw [rlpNum_val h (by omega), rlpNum_large h (by omega), List.length_cons, l1 h h']
    omega
  have v2 : ∀ {m}, 256 ≤ m → m < 65536 → beVal (rlpNum m) = 0x820000 + m ∧ (rlpNum m).length = 3 := by
    intro m h h'
    rw [rlpNum_val (by omega) (by omega), rlpNum_large (by omega) (by omega), List.length_cons, l2 h h']
    omega
  have v0 : ∀ {m}, m ≠ 0 → m < 128 → beVal (rlpNum m) = m ∧ (rlpNum m).length = 1 := by
    intro m h h'
    rw [rlpNum_small h h']; simp [beVal]
  enter hP.rlp in rlpCode
  rw [b_increment_bounded_rlp]
  kexec [m_eq_const, m_increment, m_add_const]
  by_cases h0 : n = 0
  · subst h0
    have e := v0 (m := 1) (by decide) (by decide)
    rw [e.1, e.2, rlpNum_zero, if_neg (by decide)]
    enter hP.rlp in rlpCode
    rw [b_case_0x80]
    kexec []
    exact .refl _
  · by_cases h1 : n < 128
    · have e := v0 h0 h1
      rw [e.1, e.2, if_pos (by omega)]
      by_cases h2 : n = 127
      · subst h2
        have e := v1 (m := 128) (by decide) (by decide)
        rw [e.1, e.2, if_neg (by decide)]
        enter hP.rlp in rlpCode
        rw [b_case_0x7f]
        kexec []
        exact .refl _
      · have e := v0 (m := n + 1) (by omega) (by omega)
        rw [e.1, e.2, if_pos (by omega), if_pos (by omega), wadd_small (by omega), Nat.add_comm 1]
        exact .refl _
    · by_cases h2 : n < 256
      · have e := v1 (m := n) (by omega) (by omega)
        rw [e.1, e.2, if_pos (by omega), if_pos (by omega)]
        by_cases h3 : n = 255
        · subst h3
          have e := v2 (m := 256) (by decide) (by decide)
          rw [e.1, e.2, if_neg (by decide)]
          enter hP.rlp in rlpCode
          rw [b_case_0x81ff]
          kexec []
          exact .refl _
        · have e := v1 (m := n + 1) (by omega) (by omega)
          rw [e.1, e.2, if_pos (by omega), wadd_small (by omega), Nat.add_comm 1]
          exact .refl _
      · have e := v2 (m := n) (by omega) (by omega)
        have e' := v2 (m := n + 1) (by omega) (by omega)
        rw [e.1, e.2, e'.1, e'.2, if_pos (by omega), if_pos (by omega), if_pos (by omega), wadd_small (by omega), Nat.add_comm 1]
        exact .refl _

end Verif.Kasm
