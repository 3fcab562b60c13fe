import Verif.Kasm.CopyClaims
import Verif.Kasm.Code.LinkedList
import Verif.Kasm.Code.Rlp

/-!
RLP in the kernel: writing strings, numbers and list headers, and reading them (`asm/rlp`).
-/

namespace Verif.Kasm

variable {P : Prog} {S : List Nat} {w w' : World} {ret a v n : Nat}

/-! ### The encoding (Yellow Paper, appendix B) -/

/-- The bytes of a number, highest first, without leading zeros. -/
def beMin (n : Nat) : List Nat :=
  if _h : n = 0 then [] else beMin (n / 256) ++ [n % 256]
termination_by n
decreasing_by omega

/-- What comes before `len` bytes of contents. -/
def rlpHeader (base len : Nat) : List Nat :=
  if len ≤ 55 then [base + len] else (base + 55 + (beMin len).length) :: beMin len

/-- The encoding of a byte string. -/
def rlpStr (s : List Nat) : List Nat :=
  match s with
  | [b] => if b < 0x80 then [b] else [0x81, b]
  | s => rlpHeader 0x80 s.length ++ s

/-- The encoding of a number. -/
def rlpNum (n : Nat) : List Nat := rlpStr (beMin n)

/-- The encoding of a list whose items, encoded, are `s`. -/
def rlpList (s : List Nat) : List Nat := rlpHeader 0xc0 s.length ++ s

/-! ### Numbers and their bytes -/

theorem beMin_zero : beMin 0 = [] := by rw [beMin]; rfl

theorem beMin_pos (h : n ≠ 0) : beMin n = beMin (n / 256) ++ [n % 256] := by rw [beMin, dif_neg h]

theorem beMin_byte (h : n ≠ 0) (h' : n < 256) : beMin n = [n] := by
  rw [beMin_pos h, Nat.div_eq_of_lt h', beMin_zero, Nat.mod_eq_of_lt h']; rfl

theorem beVal_beMin (n : Nat) : beVal (beMin n) = n := by
  induction n using Nat.strongRecOn with
  | _ n ih =>
    by_cases h : n = 0
    · subst h; rw [beMin_zero]; rfl
    · rw [beMin_pos h, beVal_snoc, ih _ (by omega)]; omega

theorem beMin_lt (n : Nat) : ∀ b ∈ beMin n, b < 256 := by
  induction n using Nat.strongRecOn with
  | _ n ih =>
    by_cases h : n = 0
    · subst h; rw [beMin_zero]; simp
    · rw [beMin_pos h]
      intro b hb
      rcases List.mem_append.1 hb with hb | hb
      · exact ih _ (by omega) b hb
      · simp only [List.mem_singleton] at hb; omega

/-- The number of bytes. -/
theorem beMin_length : ∀ (k n : Nat), n < 256 ^ k → (k = 0 ∨ 256 ^ (k - 1) ≤ n) → (beMin n).length = k := by
  intro k
  induction k with
  | zero => intro n h _; rw [Nat.pow_zero] at h; obtain rfl : n = 0 := by omega
            rw [beMin_zero]; rfl
  | succ k ih =>
    intro n h h'
    rw [Nat.add_sub_cancel] at h'
    have h' := h'.resolve_left (by omega)
    have hp : 0 < 256 ^ k := Nat.pow_pos (by omega)
    rw [beMin_pos (by omega), List.length_append, ih (n / 256)]
    · rfl
    · rw [Nat.pow_succ] at h; omega
    · cases k with
      | zero => exact .inl rfl
      | succ k => right; rw [Nat.add_sub_cancel]; rw [Nat.pow_succ] at h'; omega

theorem beMin_bits {b : Nat} (h1 : 1 ≤ b) (h : 2 ^ (b - 1) ≤ n) (h' : n < 2 ^ b) : (beMin n).length = (b + 7) / 8 := by
  refine beMin_length _ n ?_ (.inr ?_)
  · rw [show (256 : Nat) = 2 ^ 8 from rfl, ← Nat.pow_mul]
    exact Nat.lt_of_lt_of_le h' (Nat.pow_le_pow_right (by omega) (by omega))
  · rw [show (256 : Nat) = 2 ^ 8 from rfl, ← Nat.pow_mul]
    exact Nat.le_trans (Nat.pow_le_pow_right (by omega) (by omega)) h

theorem beMin_dig (n i : Nat) (h : i < (beMin n).length) : (beMin n).getD i 0 = dig n ((beMin n).length - 1 - i) := by
  have h1 := dig_beVal (beMin n) (beMin_lt n) ((beMin n).length - 1 - i) (by omega)
  rw [beVal_beMin, show (beMin n).length - 1 - ((beMin n).length - 1 - i) = i by omega] at h1
  exact h1.symm

theorem beMin_le32 (h : n < 2 ^ 256) : (beMin n).length ≤ 32 := by
  by_cases h0 : n = 0
  · subst h0; rw [beMin_zero]; decide
  · have h1 := Nat.log2_self_le h0
    have h2 := Nat.lt_log2_self (n := n)
    rw [beMin_bits (b := n.log2 + 1) (by omega) h1 h2]
    have : n.log2 < 256 := (Nat.log2_lt h0).2 h
    omega

theorem beMin_ne (h : n ≠ 0) : 1 ≤ (beMin n).length := by
  rw [beMin_pos h, List.length_append]; simp

/-! ### Writing -/

/-- `l` written at `a`. -/
def World.put (w : World) (a : Nat) (l : List Nat) : World :=
  { w with mem := fun b => if a ≤ b ∧ b < a + l.length then l.getD (b - a) 0 else w.mem b }

theorem put_nil : w.put a [] = w := by
  refine World.mem_ext (fun b => ?_) rfl rfl
  simp only [World.put, List.length_nil]; rw [if_neg (by omega)]

theorem put_one : w.set a v = w.put a [v] := by
  refine World.mem_ext (fun b => ?_) rfl rfl
  simp only [World.put, World.set, List.length_singleton]
  by_cases h : b = a
  · subst h; rw [if_pos rfl, if_pos (by omega), Nat.sub_self]; rfl
  · rw [if_neg h, if_neg (by omega)]

theorem put_put {l l' : List Nat} : (w.put a l).put (a + l.length) l' = w.put a (l ++ l') := by
  refine World.mem_ext (fun b => ?_) rfl rfl
  simp only [World.put, List.length_append]
  by_cases h : a + l.length ≤ b ∧ b < a + l.length + l'.length
  · rw [if_pos h, if_pos (by omega)]
    simp only [List.getD_eq_getElem?_getD]
    rw [List.getElem?_append_right (by omega), Nat.sub_add_eq]
  · rw [if_neg h]
    by_cases h1 : a ≤ b ∧ b < a + l.length
    · rw [if_pos h1, if_pos (by omega)]
      simp only [List.getD_eq_getElem?_getD]
      rw [List.getElem?_append_left (by omega)]
    · rw [if_neg h1, if_neg (by omega)]

theorem put_store : storeBytes w a v (beMin v).length = w.put a (beMin v) := by
  refine World.mem_ext (fun b => ?_) (storeBytes_ctx ..) (storeBytes_inp ..)
  rw [storeBytes_mem]
  simp only [World.put]
  split
  · rename_i h; rw [beMin_dig _ _ (by omega)]
  · rfl

/-- The cells from `r` on. -/
def cellsAt (w : World) (r n : Nat) : List Nat := (List.range n).map fun i => w.mem (r + i)

theorem cellsAt_length {r : Nat} : (cellsAt w r n).length = n := by simp [cellsAt]

theorem cellsAt_getD {r i : Nat} (h : i < n) : (cellsAt w r n).getD i 0 = w.mem (r + i) := by
  simp [cellsAt, List.getD_eq_getElem?_getD, h]

theorem put_copy {r : Nat} : w.copy a r n = w.put a (cellsAt w r n) := by
  refine World.mem_ext (fun b => ?_) rfl rfl
  simp only [World.put, World.copy, cellsAt_length]
  split
  · rename_i h; rw [cellsAt_getD (by omega)]
  · rfl

/-- Nothing has changed but that `l` has been written at `a`, and that hints of the prover may have been used. -/
structure Written (w w' : World) (a : Nat) (l : List Nat) : Prop where
  here : ∀ i, i < l.length → w'.mem (a + i) = l.getD i 0
  else_ : ∀ b, b < a ∨ a + l.length ≤ b → w'.mem b = w.mem b
  ctx : w'.ctx = w.ctx

theorem written_put {l : List Nat} (hm : w'.mem = w.mem) (hc : w'.ctx = w.ctx) : Written w (w'.put a l) a l :=
  ⟨fun i hi => by simp only [World.put]; rw [if_pos (by omega), Nat.add_sub_cancel_left],
   fun b hb => by simp only [World.put]; rw [if_neg (by omega), hm], hc⟩

/-! ### The number of bytes -/

/-- A kernel with this code and what it calls. -/
structure Prog.Rlps (P : Prog) : Prop where
  copies : P.Copies
  rlp : P.Has rlpCode
  panic : P.Has [("panic", b_panic)]

/-- The number of bits of a number. -/
def bits (n : Nat) : Nat := n.log2 + 1

theorem bits_shr (h0 : v ≠ 0) (hv : v < 2 ^ 256) (hn : n < 2 ^ 256) : wshr (wsub n 1) v = 1 ↔ n = bits v := by
  have hlog : v.log2 < 256 := (Nat.log2_lt h0).2 hv
  by_cases h : n = 0
  · subst h
    have : 255 < wsub 0 1 := by decide +kernel
    rw [wshr, if_pos this, bits]; omega
  · rw [wsub_small (by omega) hn, bits]
    simp only [wshr]
    split
    · omega
    · rename_i h1
      have key := Nat.log2_eq_iff (n := v) (k := n - 1) h0
      have hp : 0 < 2 ^ (n - 1) := Nat.pow_pos (by omega)
      rw [show n = v.log2 + 1 ↔ v.log2 = n - 1 by omega, key, Nat.div_eq_iff hp, Nat.pow_succ]
      omega

theorem rlp_panic (hP : P.Rlps) : Reaches P (.goto (P.addr "panic") S w) .panic := by
  refine .enter hP.panic (c := b_panic) (by simp) ?_
  kexec [b_panic]
  exact .refl _

/-- `asm/rlp/num_bytes.asm:3-15`: there is one hint that does not stop the proof. -/
theorem run_num_bytes (hP : P.Rlps) (h0 : v ≠ 0) (hv : v < 2 ^ 256) (hi : w.inp 0 < 2 ^ 256) :
    Returns P (w.inp 0 = bits v) (.goto (P.addr "num_bytes") (v :: ret :: S) w) ret fun s w' => s = (beMin v).length :: S ∧ w' = w.next := by
  renter hP.rlp in rlpCode
  rw [b_num_bytes]
  kexec [m_num_bits, m_decrement, m_sub_const, m_assert_eq_const, m_add_const, m_shr_const]
  rw [if_pos h0]
  rw [exec_input]
  kexec []
  have hw1 : wshr (wsub (w.inp 0) 1) v < 2 ^ 256 := by
    simp only [wshr]; split
    · omega
    · exact Nat.lt_of_le_of_lt (Nat.div_le_self _ _) hv
  by_cases hh : w.inp 0 = bits v
  · have hlog : v.log2 < 256 := (Nat.log2_lt h0).2 hv
    have e := (bits_shr h0 hv hi).2 hh
    rw [if_pos ((wsub_eq_zero (by omega) hw1).2 e.symm), hh]
    have e2 : wshr 3 (wadd 7 (bits v)) = (beMin v).length := by
      have h1 := Nat.log2_self_le h0
      have h2 := Nat.lt_log2_self (n := v)
      rw [beMin_bits (b := v.log2 + 1) (by omega) h1 h2, bits, wadd_small (by omega), wshr, if_neg (by omega)]
      omega
    rw [e2]
    exact .ret ⟨rfl, rfl⟩
  · have hne : wshr (wsub (w.inp 0) 1) v ≠ 1 := fun e => hh ((bits_shr h0 hv hi).1 e)
    rw [if_neg (fun e => hne ((wsub_eq_zero (by omega) hw1).1 e).symm)]
    exact .of (rlp_panic hP) (.panic hh)

/-! ### Encoding -/

theorem rlpHeader_short {b : Nat} (h : n ≤ 55) : rlpHeader b n = [b + n] := if_pos h

theorem rlpHeader_long {b : Nat} (h : 55 < n) : rlpHeader b n = (b + 55 + (beMin n).length) :: beMin n := if_neg (by omega)

theorem exec_set_at {c : List I} {k : Nat} (h : Span a k) : exec P (MSTORE_GENERAL :: c) (v :: a :: S) w = exec P c S (w.put a [v]) := by
  rw [exec_mstore h.2.1, h.key, put_one]

theorem Span.one {k : Nat} (h : Span a k) (hk : 1 < k) : Span (a + 1) (k - 1) := h.later hk

/-- `asm/rlp/encode.asm:22-38`. -/
theorem run_encode_fixed (hP : P.Rlps) (hv : v ≠ 0) (hv' : v < 2 ^ 256) (ha : Span a (1 + (beMin v).length)) :
    Reaches P (.goto (P.addr "encode_rlp_fixed") ((beMin v).length :: a :: v :: ret :: S) w)
      (.goto ret ((a + (1 + (beMin v).length)) :: S) (w.put a ((0x80 + (beMin v).length) :: beMin v))) := by
  have h32 := beMin_le32 hv'
  have h1 := beMin_ne hv
  have hl := ha.lt
  enter hP.rlp in rlpCode
  rw [b_encode_rlp_fixed]
  kexec [m_add_const, m_increment]
  rw [wadd_small (by omega), exec_set_at ha]
  kexec []
  rw [wadd_small (by omega)]
  refine (run_unpacking hP.copies h1 h32 (by rw [Nat.add_comm]; exact (ha.one (by omega)).le (by omega))).trans ?_
  enter hP.rlp in rlpCode
  rw [b_encode_rlp_fixed_finish]
  kexec []
  rw [put_store, show 1 + a = a + [128 + (beMin v).length].length by simp [Nat.add_comm], put_put]
  rw [show a + [128 + (beMin v).length].length + (beMin v).length = a + (1 + (beMin v).length) by simp; omega]
  exact .refl _

theorem rlpNum_zero : rlpNum 0 = [0x80] := by rw [rlpNum, beMin_zero]; rfl

theorem rlpNum_small (h0 : v ≠ 0) (h : v < 128) : rlpNum v = [v] := by
  rw [rlpNum, beMin_byte h0 (by omega)]; exact if_pos h

theorem rlpStr_short {s : List Nat} (h : s.length ≠ 1) (h' : s.length ≤ 55) : rlpStr s = (0x80 + s.length) :: s := by
  rw [rlpStr]
  · rw [rlpHeader_short h']; rfl
  · rintro b rfl; exact h rfl

theorem rlpStr_long {s : List Nat} (h : 55 < s.length) : rlpStr s = rlpHeader 0x80 s.length ++ s := by
  rw [rlpStr]
  rintro b rfl; simp at h

theorem rlpStr_one {b : Nat} : rlpStr [b] = if b < 0x80 then [b] else [0x81, b] := rfl

theorem rlpNum_large (h : 128 ≤ v) (hv : v < 2 ^ 256) : rlpNum v = (0x80 + (beMin v).length) :: beMin v := by
  have h32 := beMin_le32 hv
  by_cases hb : v < 256
  · rw [rlpNum, beMin_byte (by omega) hb, rlpStr_one, if_neg (by omega)]; rfl
  · rw [rlpNum, rlpStr_short _ (by omega)]
    intro h1
    have : beMin v = [v % 256] := by
      rw [beMin_pos (by omega), List.length_append, List.length_singleton] at h1
      have h2 : beMin (v / 256) = [] := List.eq_nil_of_length_eq_zero (by omega)
      rw [beMin_pos (by omega), h2]; rfl
    have h3 := beVal_beMin v
    rw [this] at h3
    simp only [beVal, List.foldl] at h3
    omega

theorem rlpNum_length (hv : v < 2 ^ 256) : (rlpNum v).length ≤ 33 := by
  by_cases h0 : v = 0
  · subst h0; rw [rlpNum_zero]; decide
  · by_cases h : v < 128
    · rw [rlpNum_small h0 h]; simp
    · rw [rlpNum_large (by omega) hv, List.length_cons]
      have := beMin_le32 hv; omega

/-- `asm/rlp/encode_rlp_scalar.asm:77-86`. -/
theorem run_encode_small (hP : P.Rlps) (ha : Span a 1) :
    Reaches P (.goto (P.addr "encode_rlp_scalar_small") (a :: v :: ret :: S) w) (.goto ret ((a + 1) :: S) (w.put a [v])) := by
  have hl := ha.lt
  enter hP.rlp in rlpCode
  rw [b_encode_rlp_scalar_small]
  kexec [m_increment, m_add_const]
  rw [exec_set_at ha]
  kexec []
  rw [wadd_small (by omega), Nat.add_comm]
  exact .refl _

/-- `asm/rlp/encode_rlp_scalar.asm:4-33`. -/
theorem run_encode_scalar (hP : P.Rlps) (hv : v < 2 ^ 256) (ha : Span a (rlpNum v).length) (hi : w.inp 0 < 2 ^ 256) :
    Returns P (128 ≤ v → w.inp 0 = bits v) (.goto (P.addr "encode_rlp_scalar") (a :: v :: ret :: S) w) ret fun s w' =>
      s = (a + (rlpNum v).length) :: S ∧ w' = (if 128 ≤ v then w.next else w).put a (rlpNum v) := by
  have hl := ha.lt
  renter hP.rlp in rlpCode
  rw [b_encode_rlp_scalar]
  kexec [m_gt_const, m_increment, m_add_const]
  by_cases h : 128 ≤ v
  · rw [if_neg (by omega)]
    renter hP.rlp in rlpCode
    rw [b_encode_rlp_scalar_medium]
    kexec []
    refine ((run_num_bytes hP (by omega) hv hi).mono (fun hh => hh h) fun _ _ => id).andThen ?_
    rintro s w' ⟨rfl, rfl⟩
    renter hP.rlp in rlpCode
    rw [b_encode_rlp_scalar_1_after]
    kexec []
    rw [if_pos h, rlpNum_large h hv]
    rw [rlpNum_large h hv, List.length_cons] at ha
    refine .of (run_encode_fixed hP (by omega) hv (by rw [Nat.add_comm]; exact ha)) (.ret ⟨?_, rfl⟩)
    rw [List.length_cons, Nat.add_comm 1]
  · rw [if_pos (by omega)]
    by_cases h0 : v = 0
    · subst h0
      kexec []
      rw [exec_set_at ha]
      kexec []
      rw [wadd_small (by omega), rlpNum_zero, Nat.add_comm 1]
      exact .ret ⟨rfl, rfl⟩
    · rw [if_neg h0]
      rw [rlpNum_small h0 (by omega)] at ha
      rw [if_neg h, rlpNum_small h0 (by omega)]
      exact .of (run_encode_small hP ha) (.ret ⟨rfl, rfl⟩)

theorem rlpStr_num_zero : rlpStr (rlpNum 0) = [0x81, 0x80] := by rw [rlpNum_zero]; rfl

theorem rlpStr_num_small (h0 : v ≠ 0) (h : v < 128) : rlpStr (rlpNum v) = [v] := by rw [rlpNum_small h0 h]; exact if_pos h

theorem rlpStr_num_large (h : 128 ≤ v) (hv : v < 2 ^ 256) : rlpStr (rlpNum v) = (0x81 + (beMin v).length) :: (0x80 + (beMin v).length) :: beMin v := by
  have h32 := beMin_le32 hv
  have h1 := beMin_ne (n := v) (by omega)
  rw [rlpNum_large h hv, rlpStr_short (by rw [List.length_cons]; omega) (by rw [List.length_cons]; omega), List.length_cons]
  congr 1; omega

/-- `asm/rlp/encode.asm:43-62`. -/
theorem run_doubly_fixed (hP : P.Rlps) (hv : v ≠ 0) (hv' : v < 2 ^ 256) (ha : Span a (2 + (beMin v).length)) :
    Reaches P (.goto (P.addr "doubly_encode_rlp_fixed") ((beMin v).length :: a :: v :: ret :: S) w)
      (.goto ret ((a + (2 + (beMin v).length)) :: S) (w.put a ((0x81 + (beMin v).length) :: (0x80 + (beMin v).length) :: beMin v))) := by
  have h32 := beMin_le32 hv'
  have h1 := beMin_ne hv
  have hl := ha.lt
  have hs1 := ha.later (k := 1) (by omega)
  have hs2 := ha.later (k := 2) (by omega)
  enter hP.rlp in rlpCode
  rw [b_doubly_encode_rlp_fixed]
  kexec [m_add_const, m_increment]
  rw [wadd_small (by omega), exec_set_at ha]
  kexec []
  rw [wadd_small (by omega), wadd_small (by omega), Nat.add_comm 1 a, exec_set_at hs1]
  kexec []
  rw [wadd_small (by omega), Nat.add_comm 2 a]
  refine (run_unpacking hP.copies h1 h32 (hs2.le (by omega))).trans ?_
  enter hP.rlp in rlpCode
  rw [b_encode_rlp_fixed_finish]
  kexec []
  rw [put_store, show a + 1 = a + [129 + (beMin v).length].length from rfl, put_put,
    show a + 2 = a + ([129 + (beMin v).length] ++ [128 + (beMin v).length]).length from rfl, put_put]
  rw [show a + ([129 + (beMin v).length] ++ [128 + (beMin v).length]).length + (beMin v).length = a + (2 + (beMin v).length) by simp; omega]
  exact .refl _

/-- `asm/rlp/encode_rlp_scalar.asm:38-73`. -/
theorem run_doubly_scalar (hP : P.Rlps) (hv : v < 2 ^ 256) (ha : Span a (rlpStr (rlpNum v)).length) (hi : w.inp 0 < 2 ^ 256) :
    Returns P (128 ≤ v → w.inp 0 = bits v) (.goto (P.addr "doubly_encode_rlp_scalar") (a :: v :: ret :: S) w) ret fun s w' =>
      s = (a + (rlpStr (rlpNum v)).length) :: S ∧ w' = (if 128 ≤ v then w.next else w).put a (rlpStr (rlpNum v)) := by
  have hl := ha.lt
  renter hP.rlp in rlpCode
  rw [b_doubly_encode_rlp_scalar]
  kexec [m_gt_const, m_increment, m_add_const]
  by_cases h : 128 ≤ v
  · rw [if_neg (by omega)]
    renter hP.rlp in rlpCode
    rw [b_doubly_encode_rlp_scalar_medium]
    kexec []
    refine ((run_num_bytes hP (by omega) hv hi).mono (fun hh => hh h) fun _ _ => id).andThen ?_
    rintro s w' ⟨rfl, rfl⟩
    renter hP.rlp in rlpCode
    rw [b_encode_rlp_scalar_2_after]
    kexec []
    rw [if_pos h, rlpStr_num_large h hv]
    rw [rlpStr_num_large h hv, List.length_cons, List.length_cons] at ha
    refine .of (run_doubly_fixed hP (by omega) hv (by rw [Nat.add_comm]; exact ha)) (.ret ⟨?_, rfl⟩)
    rw [List.length_cons, List.length_cons, Nat.add_comm 2]
  · rw [if_pos (by omega)]
    by_cases h0 : v = 0
    · subst h0
      rw [rlpStr_num_zero] at ha hl ⊢
      have hs1 := ha.later (k := 1) (by decide)
      kexec []
      rw [exec_set_at ha]
      kexec []
      rw [wadd_small (by simp only [List.length_cons, List.length_nil] at hl; omega), Nat.add_comm 1, exec_set_at hs1]
      kexec []
      rw [wadd_small (by simp only [List.length_cons, List.length_nil] at hl; omega), Nat.add_comm 1,
        show (w.put a [129]).put (a + 1) [128] = w.put a [129, 128] from put_put (l := [129])]
      exact .ret ⟨rfl, rfl⟩
    · rw [if_neg h0]
      rw [rlpStr_num_small h0 (by omega)] at ha
      rw [if_neg h, rlpStr_num_small h0 (by omega)]
      exact .of (run_encode_small hP ha) (.ret ⟨rfl, rfl⟩)

/-- `asm/rlp/encode.asm:72-109`. -/
theorem run_string_prefix (hP : P.Rlps) (hn : n < 2 ^ 256) (ha : Span a (rlpHeader 0x80 n).length) (hi : w.inp 0 < 2 ^ 256) :
    Returns P (55 < n → w.inp 0 = bits n) (.goto (P.addr "encode_rlp_multi_byte_string_prefix") (a :: n :: ret :: S) w) ret fun s w' =>
      s = (a + (rlpHeader 0x80 n).length) :: S ∧ w' = (if 55 < n then w.next else w).put a (rlpHeader 0x80 n) := by
  have hl := ha.lt
  renter hP.rlp in rlpCode
  rw [b_encode_rlp_multi_byte_string_prefix]
  kexec [m_gt_const, m_increment, m_add_const]
  by_cases h : 55 < n
  · have h32 := beMin_le32 hn
    have h1 := beMin_ne (n := n) (by omega)
    rw [if_neg (by omega)]
    rw [rlpHeader_long h, List.length_cons] at ha hl ⊢
    renter hP.rlp in rlpCode
    rw [b_encode_rlp_multi_byte_string_prefix_large]
    kexec []
    refine ((run_num_bytes hP (by omega) hn hi).mono (fun hh => hh h) fun _ _ => id).andThen ?_
    rintro s w' ⟨rfl, rfl⟩
    renter hP.rlp in rlpCode
    rw [b_encode_1_after]
    kexec [m_add_const, m_increment]
    rw [wadd_small (by omega), exec_set_at ha]
    kexec []
    rw [wadd_small (by omega), Nat.add_comm 1 a]
    refine .of (run_unpacking hP.copies h1 h32 ((ha.one (by omega)).le (by omega))) ?_
    rw [put_store, show (w.next.put a [183 + (beMin n).length]).put (a + 1) (beMin n) = w.next.put a ((183 + (beMin n).length) :: beMin n) from
      put_put (l := [183 + (beMin n).length]), if_pos h]
    exact .ret ⟨by congr 1; omega, rfl⟩
  · rw [if_pos (by omega)]
    rw [rlpHeader_short (by omega)] at ha hl ⊢
    kexec []
    rw [exec_set_at ha]
    kexec []
    rw [wadd_small (by simp only [List.length_cons, List.length_nil] at hl; omega), wadd_small (by omega), Nat.add_comm 1, Nat.add_comm n, if_neg h]
    exact .ret ⟨rfl, rfl⟩

/-- `asm/rlp/encode.asm:118-152`. -/
theorem run_list_prefix (hP : P.Rlps) (hn : n < 2 ^ 256) (ha : Span a (rlpHeader 0xc0 n).length) (hi : w.inp 0 < 2 ^ 256) :
    Returns P (55 < n → w.inp 0 = bits n) (.goto (P.addr "encode_rlp_list_prefix") (a :: n :: ret :: S) w) ret fun s w' =>
      s = (a + (rlpHeader 0xc0 n).length) :: S ∧ w' = (if 55 < n then w.next else w).put a (rlpHeader 0xc0 n) := by
  have hl := ha.lt
  renter hP.rlp in rlpCode
  rw [b_encode_rlp_list_prefix]
  kexec [m_gt_const, m_increment, m_add_const]
  by_cases h : 55 < n
  · have h32 := beMin_le32 hn
    have h1 := beMin_ne (n := n) (by omega)
    rw [if_neg (by omega)]
    rw [rlpHeader_long h, List.length_cons] at ha hl ⊢
    renter hP.rlp in rlpCode
    rw [b_encode_rlp_list_prefix_large]
    kexec []
    refine ((run_num_bytes hP (by omega) hn hi).mono (fun hh => hh h) fun _ _ => id).andThen ?_
    rintro s w' ⟨rfl, rfl⟩
    renter hP.rlp in rlpCode
    rw [b_encode_2_after]
    kexec [m_add_const, m_increment]
    rw [wadd_small (by omega), exec_set_at ha]
    kexec []
    rw [wadd_small (by omega), Nat.add_comm 1 a]
    refine .of (run_unpacking hP.copies h1 h32 ((ha.one (by omega)).le (by omega))) ?_
    renter hP.rlp in rlpCode
    rw [b_encode_rlp_list_prefix_large_done_writing_len]
    kexec []
    rw [put_store, show (w.next.put a [247 + (beMin n).length]).put (a + 1) (beMin n) = w.next.put a ((247 + (beMin n).length) :: beMin n) from
      put_put (l := [247 + (beMin n).length]), if_pos h]
    exact .ret ⟨by congr 1; omega, rfl⟩
  · rw [if_pos (by omega)]
    rw [rlpHeader_short (by omega)] at ha hl ⊢
    kexec []
    rw [wadd_small (by omega), exec_set_at ha]
    kexec []
    rw [wadd_small (by simp only [List.length_cons, List.length_nil] at hl; omega), Nat.add_comm 1, if_neg h]
    exact .ret ⟨rfl, rfl⟩

end Verif.Kasm
