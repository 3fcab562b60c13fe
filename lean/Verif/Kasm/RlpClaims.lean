import Verif.Kasm.RlpRead

/-!
C125: what the kernel writes is the RLP encoding (`rlpStr`, `rlpNum`, `rlpList`, from appendix B of the Yellow Paper), and reading it gives
back what was written.
-/

namespace Verif.Kasm

variable {P : Prog} {S : List Nat} {w w' : World} {ret a v n : Nat}

theorem written_if {c : Prop} [Decidable c] {l : List Nat} : Written w ((if c then w.next else w).put a l) a l :=
  written_put (by split <;> rfl) (by split <;> rfl)

theorem Written.has {l : List Nat} (h : Written w w' a l) : HasBytes w' a l := h.here

/-! ### Writing -/

/-- A number: the encoding is written at `a`, nothing else changes, and the address after it is given back.  The only hint used is the
number of bits, and any other number stops the proof. -/
theorem C125_scalar (hP : P.Rlps) (hv : v < 2 ^ 256) (ha : Span a (rlpNum v).length) (hi : w.inp 0 < 2 ^ 256) :
    Returns P (128 ≤ v → w.inp 0 = bits v) (.goto (P.addr "encode_rlp_scalar") (a :: v :: ret :: S) w) ret fun s w' =>
      s = (a + (rlpNum v).length) :: S ∧ Written w w' a (rlpNum v) :=
  (run_encode_scalar hP hv ha hi).mono id fun _ _ ⟨h1, h2⟩ => ⟨h1, h2 ▸ written_if⟩

/-- The encoding of the encoding of a number, as it is in the tries of storage. -/
theorem C125_scalar_twice (hP : P.Rlps) (hv : v < 2 ^ 256) (ha : Span a (rlpStr (rlpNum v)).length) (hi : w.inp 0 < 2 ^ 256) :
    Returns P (128 ≤ v → w.inp 0 = bits v) (.goto (P.addr "doubly_encode_rlp_scalar") (a :: v :: ret :: S) w) ret fun s w' =>
      s = (a + (rlpStr (rlpNum v)).length) :: S ∧ Written w w' a (rlpStr (rlpNum v)) :=
  (run_doubly_scalar hP hv ha hi).mono id fun _ _ ⟨h1, h2⟩ => ⟨h1, h2 ▸ written_if⟩

/-- A string of any length, read from another place in memory. -/
theorem C125_string (hP : P.Rlps) {r : Nat} (ha : Span a ((rlpStr (cellsAt w r n)).length + 1)) (hr : Span r n)
    (hd : a + (rlpStr (cellsAt w r n)).length ≤ r ∨ r + n ≤ a) (hb : ∀ i < n, w.mem (r + i) < 256) (hi : w.inp 0 < 2 ^ 256) :
    Returns P (55 < n → w.inp 0 = bits n) (.goto (P.addr "encode_rlp_string") (a :: r :: n :: ret :: S) w) ret fun s w' =>
      s = (a + (rlpStr (cellsAt w r n)).length) :: S ∧ Written w w' a (rlpStr (cellsAt w r n)) :=
  (run_encode_string hP ha hr hd hb hi).mono id fun _ _ ⟨h1, h2⟩ => ⟨h1, h2 ▸ written_if⟩

/-- The header of a string. -/
theorem C125_string_header (hP : P.Rlps) (hn : n < 2 ^ 256) (ha : Span a (rlpHeader 0x80 n).length) (hi : w.inp 0 < 2 ^ 256) :
    Returns P (55 < n → w.inp 0 = bits n) (.goto (P.addr "encode_rlp_multi_byte_string_prefix") (a :: n :: ret :: S) w) ret fun s w' =>
      s = (a + (rlpHeader 0x80 n).length) :: S ∧ Written w w' a (rlpHeader 0x80 n) :=
  (run_string_prefix hP hn ha hi).mono id fun _ _ ⟨h1, h2⟩ => ⟨h1, h2 ▸ written_if⟩

/-- The header of a list. -/
theorem C125_list_header (hP : P.Rlps) (hn : n < 2 ^ 256) (ha : Span a (rlpHeader 0xc0 n).length) (hi : w.inp 0 < 2 ^ 256) :
    Returns P (55 < n → w.inp 0 = bits n) (.goto (P.addr "encode_rlp_list_prefix") (a :: n :: ret :: S) w) ret fun s w' =>
      s = (a + (rlpHeader 0xc0 n).length) :: S ∧ Written w w' a (rlpHeader 0xc0 n) :=
  (run_list_prefix hP hn ha hi).mono id fun _ _ ⟨h1, h2⟩ => ⟨h1, h2 ▸ written_if⟩

/-- A list whose items `l` are in memory already, with room for the header before them: afterwards the whole list is there. -/
theorem C125_list (hP : P.Rlps) {l : List Nat} (ha : Span a (rlpList l).length)
    (hm : HasBytes w (a + (rlpHeader 0xc0 l.length).length) l) (hi : w.inp 0 < 2 ^ 256) :
    Returns P (55 < l.length → w.inp 0 = bits l.length)
      (.goto (P.addr "prepend_rlp_list_prefix") ((a + (rlpList l).length) :: (a + (rlpHeader 0xc0 l.length).length) :: ret :: S) w) ret fun s w' =>
      s = a :: (rlpList l).length :: S ∧ HasBytes w' a (rlpList l) ∧ w'.ctx = w.ctx ∧
        ∀ b, b < a ∨ a + (rlpList l).length ≤ b → w'.mem b = w.mem b := by
  rw [rlpList, List.length_append] at ha
  have h := run_prepend (ret := ret) (S := S) hP ha hi
  rw [rlpList, List.length_append, ← Nat.add_assoc]
  refine h.mono id fun s w' ⟨h1, h2⟩ => ?_
  have hW : Written w w' a (rlpHeader 0xc0 l.length) := h2 ▸ written_if
  refine ⟨h1, fun i hlt => ?_, hW.ctx, fun b hb => hW.else_ b (by omega)⟩
  rw [List.length_append] at hlt
  by_cases hx : i < (rlpHeader 0xc0 l.length).length
  · rw [hW.here i hx, List.getD_eq_getElem?_getD, List.getD_eq_getElem?_getD, List.getElem?_append_left hx]
  · rw [hW.else_ _ (by omega), List.getD_eq_getElem?_getD, List.getElem?_append_right (by omega), ← List.getD_eq_getElem?_getD,
      ← hm _ (by omega), show a + (rlpHeader 0xc0 l.length).length + (i - (rlpHeader 0xc0 l.length).length) = a + i by omega]

/-! ### Reading -/

/-- Reading a number gives it back, with the address after it. -/
theorem C125_read_scalar (hP : P.Rlps) (hv : v < 2 ^ 256) (ha : Span a ((rlpNum v).length + 1)) (hm : HasBytes w a (rlpNum v)) :
    Reaches P (.goto (P.addr "decode_rlp_scalar") (a :: ret :: S) w) (.goto ret ((a + (rlpNum v).length) :: v :: S) w) :=
  run_decode_scalar hP hv ha hm

/-- Reading a string gives its length and the address where it is; it ends where its encoding ends. -/
theorem C125_read_string (hP : P.Rlps) {s : List Nat} (ha : Span a (rlpStr s).length) (hm : HasBytes w a (rlpStr s)) :
    ∃ b, b + s.length = a + (rlpStr s).length ∧ HasBytes w b s ∧
      Reaches P (.goto (P.addr "decode_rlp_string_len") (a :: ret :: S) w) (.goto ret (b :: s.length :: S) w) :=
  run_decode_string hP ha hm

/-- Reading a list gives the length of its items and the address of the first. -/
theorem C125_read_list (hP : P.Rlps) {l : List Nat} (ha : Span a (rlpList l).length) (hm : HasBytes w a (rlpList l)) :
    ∃ b, b + l.length = a + (rlpList l).length ∧ HasBytes w b l ∧
      Reaches P (.goto (P.addr "decode_rlp_list_len") (a :: ret :: S) w) (.goto ret (b :: l.length :: S) w) := by
  have hl := ha.lt
  rw [rlpList, List.length_append] at ha hl
  refine ⟨a + (rlpHeader 0xc0 l.length).length, ?_, hm.right, run_decode_list hP (by omega) (ha.le (by omega)) hm.left⟩
  rw [rlpList, List.length_append]; omega

/-- What was written is read back. -/
theorem C125_scalar_back (hP : P.Rlps) (hv : v < 2 ^ 256) (ha : Span a ((rlpNum v).length + 1)) (hi : w.inp 0 < 2 ^ 256) :
    Returns P (128 ≤ v → w.inp 0 = bits v) (.goto (P.addr "encode_rlp_scalar") (a :: v :: ret :: S) w) ret fun _ w' =>
      ∀ ret' S', Reaches P (.goto (P.addr "decode_rlp_scalar") (a :: ret' :: S') w') (.goto ret' ((a + (rlpNum v).length) :: v :: S') w') :=
  (C125_scalar hP hv (ha.le (Nat.le_succ _)) hi).mono id fun _ _ ⟨_, h2⟩ _ _ => run_decode_scalar hP hv ha h2.has

/-- Strings too: the same bytes are found again. -/
theorem C125_string_back (hP : P.Rlps) {r : Nat} (ha : Span a ((rlpStr (cellsAt w r n)).length + 1)) (hr : Span r n)
    (hd : a + (rlpStr (cellsAt w r n)).length ≤ r ∨ r + n ≤ a) (hb : ∀ i < n, w.mem (r + i) < 256) (hi : w.inp 0 < 2 ^ 256) :
    Returns P (55 < n → w.inp 0 = bits n) (.goto (P.addr "encode_rlp_string") (a :: r :: n :: ret :: S) w) ret fun _ w' =>
      ∀ ret' S', ∃ b, (∀ i < n, w'.mem (b + i) = w.mem (r + i)) ∧
        Reaches P (.goto (P.addr "decode_rlp_string_len") (a :: ret' :: S') w') (.goto ret' (b :: n :: S') w') := by
  refine (C125_string hP ha hr hd hb hi).mono id fun _ w' ⟨_, h2⟩ ret' S' => ?_
  obtain ⟨b, -, h3, h4⟩ := run_decode_string (ret := ret') (S := S') hP (ha.le (Nat.le_succ _)) h2.has
  rw [cellsAt_length] at h4
  refine ⟨b, fun i hi' => ?_, h4⟩
  rw [h3 i (by rw [cellsAt_length]; exact hi'), cellsAt_getD hi']

/-- Different numbers have different encodings. -/
theorem C125_distinct {u : Nat} (hu : u < 2 ^ 256) (hv : v < 2 ^ 256) (h : rlpNum u = rlpNum v) : u = v := by
  have key : ∀ {x}, 128 ≤ x → x < 2 ^ 256 → 2 ≤ (rlpNum x).length ∧ beVal ((rlpNum x).drop 1) = x := by
    intro x h1 h2
    have := beMin_ne (n := x) (by omega)
    rw [rlpNum_large h1 h2, List.length_cons, List.drop_one, List.tail_cons, beVal_beMin]
    omega
  have small : ∀ {x}, x < 128 → rlpNum x = [if x = 0 then 128 else x] := by
    intro x hx
    by_cases h0 : x = 0
    · subst h0; rw [rlpNum_zero]; rfl
    · rw [rlpNum_small h0 hx, if_neg h0]
  by_cases h1 : u < 128 <;> by_cases h2 : v < 128
  · rw [small h1, small h2] at h
    have h := List.head_eq_of_cons_eq h
    split at h <;> split at h <;> omega
  · have := (key (x := v) (by omega) hv).1
    rw [← h, small h1] at this; simp at this
  · have := (key (x := u) (by omega) hu).1
    rw [h, small h2] at this; simp at this
  · rw [← (key (x := u) (by omega) hu).2, h, (key (x := v) (by omega) hv).2]

/-! ### The key of the next transaction -/

/-- From the encoding of the number of a transaction, as a number of so many nibbles, to that of the next. -/
theorem C125_next (hP : P.Rlps) (hn : n < 65535) :
    Reaches P (.goto (P.addr "increment_bounded_rlp") (beVal (rlpNum n) :: 2 * (rlpNum n).length :: ret :: S) w)
      (.goto ret (beVal (rlpNum (n + 1)) :: 2 * (rlpNum (n + 1)).length :: S) w) :=
  run_increment hP hn

/-- The bound is needed: after 65535 comes something that is no encoding of the next number. -/
theorem C125_next_bound (hP : P.Rlps) :
    Reaches P (.goto (P.addr "increment_bounded_rlp") (beVal (rlpNum 65535) :: 2 * (rlpNum 65535).length :: ret :: S) w)
      (.goto ret (0x830000 :: 6 :: S) w) ∧ beVal (rlpNum 65536) = 0x83010000 := by
  have l2 : (beMin 65535).length = 2 := beMin_length 2 _ (by decide) (.inr (by decide))
  have l3 : (beMin 65536).length = 3 := beMin_length 3 _ (by decide) (.inr (by decide))
  refine ⟨?_, by rw [rlpNum_val (by decide) (by decide), l3]⟩
  rw [rlpNum_val (by decide) (by decide), rlpNum_large (by decide) (by decide), List.length_cons, l2]
  enter hP.rlp in rlpCode
  rw [b_increment_bounded_rlp]
  kexec [m_eq_const, m_increment, m_add_const]
  exact .refl _

/-- The reader takes more than encodings (`asm/rlp/decode.asm:1-7` says so): 5 is also read from `81 05`, which is not its encoding. -/
theorem C125_lenient (hP : P.Rlps) (ha : Span a 3) (hm : HasBytes w a [0x81, 5]) :
    Reaches P (.goto (P.addr "decode_rlp_scalar") (a :: ret :: S) w) (.goto ret ((a + 2) :: 5 :: S) w) ∧ rlpNum 5 = [5] := by
  refine ⟨?_, rlpNum_small (by decide) (by decide)⟩
  enter hP.rlp in rlpCode
  rw [b_decode_rlp_scalar]
  kexec []
  have h1 : HasBytes w a (rlpHeader 0x80 1) := hm.left (l := [0x81])
  have h2 : HasBytes w (a + 1) (beMin 5) := by rw [beMin_byte (by decide) (by decide)]; exact hm.tail
  have e5 : (beMin 5).length = 1 := by rw [beMin_byte (by decide) (by decide)]; rfl
  refine (run_decode_header hP (by decide) (ha.le (by decide)) h1).trans ?_
  have h := run_decode_int (ret := ret) (S := S) hP (by decide) (by rw [e5]; exact (ha.later (k := 1) (by decide)).le (by decide)) h2
  rw [e5] at h
  exact h

/-! ### Concrete cases -/

/-- A kernel with this code. -/
def rlpProg : Prog := tableProg (rlpCode ++ copyCode ++ [("panic", b_panic)]) List.sum

theorem rlpProg_rlps : rlpProg.Rlps := by
  have h : rlpProg.Has (rlpCode ++ copyCode ++ [("panic", b_panic)]) :=
    tableProg_has _ _ (by decide +kernel) (by decide +kernel) (by decide +kernel)
  refine ⟨tableProg_copies _ _ (by decide +kernel) (by decide +kernel) (by decide +kernel) ?_, h.mono ?_, h.mono ?_⟩
  · intro p hp; simp [hp]
  · intro p hp; simp [hp]
  · intro p hp; simp only [List.mem_singleton] at hp; simp [hp]

/-- 1024 is written as `82 04 00`; its hint is 11. -/
example : rlpNum 1024 = [0x82, 4, 0] ∧ bits 1024 = 11 ∧ Span (2 ^ 64 + 2 ^ 32) (rlpNum 1024).length ∧
    ∃ w', Reaches rlpProg (.goto (rlpProg.addr "encode_rlp_scalar") [2 ^ 64 + 2 ^ 32, 1024, 77] { rampWorld with inp := fun _ => 11 })
        (.goto 77 [2 ^ 64 + 2 ^ 32 + 3] w') ∧ w'.mem (2 ^ 64 + 2 ^ 32 + 1) = 4 := by
  have e : rlpNum 1024 = [0x82, 4, 0] := by decide +kernel
  have hs : Span (2 ^ 64 + 2 ^ 32) (rlpNum 1024).length := by rw [e]; exact ⟨by decide, by decide, by decide⟩
  refine ⟨e, by decide +kernel, hs, ?_⟩
  obtain ⟨s, w', h1, rfl, h2⟩ := (C125_scalar (v := 1024) (ret := 77) (S := []) (w := { rampWorld with inp := fun _ => 11 }) rlpProg_rlps (by decide) hs
    (by decide)).sure (by decide +kernel)
  rw [e] at h1
  exact ⟨w', h1, by rw [h2.here 1 (by rw [e]; decide), e]; rfl⟩

/-- A string of 60 bytes has a header of two bytes. -/
example : ∃ w', Reaches rlpProg (.goto (rlpProg.addr "encode_rlp_string") [2 ^ 64 + 3 * 2 ^ 32, 2 ^ 64 + 2 ^ 32, 60, 77] { rampWorld with inp := fun _ => 6 })
      (.goto 77 [2 ^ 64 + 3 * 2 ^ 32 + 62] w') ∧ w'.mem (2 ^ 64 + 3 * 2 ^ 32) = 0xb8 ∧ w'.mem (2 ^ 64 + 3 * 2 ^ 32 + 1) = 60 ∧ w'.mem (2 ^ 64 + 3 * 2 ^ 32 + 61) = 59 := by
  have el : (rlpStr (cellsAt { rampWorld with inp := fun _ => 6 } (2 ^ 64 + 2 ^ 32) 60)).length = 62 := by decide +kernel
  obtain ⟨s, w', h1, rfl, h2⟩ := (C125_string (n := 60) (r := 2 ^ 64 + 2 ^ 32) (a := 2 ^ 64 + 3 * 2 ^ 32) (ret := 77) (S := [])
    (w := { rampWorld with inp := fun _ => 6 }) rlpProg_rlps (by rw [el]; exact ⟨by decide, by decide, by decide⟩) ⟨by decide, by decide, by decide⟩
    (by rw [el]; decide) (fun i _ => Nat.mod_lt _ (by omega)) (by decide)).sure (by decide +kernel)
  rw [el] at h1
  refine ⟨w', h1, ?_, ?_, ?_⟩
  · exact (h2.here 0 (by rw [el]; decide)).trans (by decide +kernel)
  · exact (h2.here 1 (by rw [el]; decide)).trans (by decide +kernel)
  · exact (h2.here 61 (by rw [el]; decide)).trans (by decide +kernel)

/-- A list of two items, `82 04 00` and `05`. -/
example : rlpList (rlpNum 1024 ++ rlpNum 5) = [0xc4, 0x82, 4, 0, 5] ∧ Span (2 ^ 64 + 2 ^ 32) (rlpList (rlpNum 1024 ++ rlpNum 5)).length ∧
    HasBytes (rampWorld.put (2 ^ 64 + 2 ^ 32 + 1) [0x82, 4, 0, 5]) (2 ^ 64 + 2 ^ 32 + 1) (rlpNum 1024 ++ rlpNum 5) := by
  have e1 : rlpNum 1024 ++ rlpNum 5 = [0x82, 4, 0, 5] := by decide +kernel
  rw [e1]
  exact ⟨by decide +kernel, ⟨by decide, by decide, by decide⟩, (written_put (w := rampWorld) rfl rfl).here⟩

example : beVal (rlpNum 127) = 0x7f ∧ beVal (rlpNum 128) = 0x8180 ∧ beVal (rlpNum 256) = 0x820100 ∧ beVal (rlpNum 0) = 0x80 := by decide +kernel

end Verif.Kasm
