import Verif.Kasm.BignumCmp

/-! The kernel's modular multiplication of integers of 128-bit limbs, `asm/bignum/modmul.asm`: the
prover supplies remainder and quotient, the code checks them. -/

namespace Verif.Kasm

variable {P : Prog} {ret : Nat} {s : List Nat}

/-- The code of `asm/bignum/*.asm` with the target of failed assertions. -/
def bigCode : List (String × List I) := ("panic", b_panic) :: bignumCode

theorem Prog.Has.big {P : Prog} (h : P.Has bigCode) : P.Has bignumCode :=
  h.mono fun _ hp => List.mem_cons_of_mem _ hp

theorem reach_panicB {P : Prog} (hP : P.Has bigCode) {s : List Nat} {w : World} :
    Reaches P (.goto (P.addr "panic") s w) .panic := by
  refine Reaches.enter hP (List.mem_cons_self ..) ?_
  simp only [b_panic, exec_panic]; exact .refl _

/-! ### The prover's numbers -/

/-- The cells from `l` on hold what the prover supplied, and nothing else has changed. -/
def Taken (w w' : World) (l n : Nat) : Prop :=
  (∀ j < n, limbs w' l j = w.inp j) ∧ Leaves w w' l n ∧ w'.inp = fun j => w.inp (n + j)

theorem Taken.one {w : World} {l : Nat} : Taken w (w.next.set (base w + l) (w.inp 0)) l 1 := by
  refine ⟨fun j hj => ?_, ⟨rfl, fun a ha => set_ne (by omega)⟩, ?_⟩
  · obtain rfl : j = 0 := by omega
    exact set_same
  · funext j; rw [Nat.add_comm 1 j]; rfl

theorem Taken.more {w w1 w' : World} {l n : Nat} (h : Taken w w1 l 1) (h' : Taken w1 w' (l + 1) n) :
    Taken w w' l (n + 1) := by
  obtain ⟨a1, a2, a3⟩ := h
  obtain ⟨b1, b2, b3⟩ := h'
  refine ⟨fun j hj => ?_, (a2.widen (by omega) (by omega)).trans (b2.widen (by omega) (by omega)), ?_⟩
  · match j with
    | 0 =>
      rw [← a1 0 (by omega), limbs, limbs, b2.base_eq]
      exact b2.2 _ (.inl (by omega))
    | j + 1 =>
      have := b1 j (by omega)
      rw [a3] at this
      rw [show limbs w' l (j + 1) = limbs w' (l + 1) j by rw [← limbs_succ], this, Nat.add_comm]
  · rw [b3, a3]; funext j; rw [show n + 1 + j = 1 + (n + j) by omega]

/-- One round of `asm/bignum/modmul.asm:28-60`. -/
theorem remainder_body {len a b m lo i : Nat} {tl : List Nat} {w : World} (hlo : lo + len ≤ 2 ^ 32)
    (hc : w.ctx < 2 ^ 32) (hi : i < len) :
    exec P b_modmul_remainder_loop (i :: base w :: len :: a :: b :: m :: lo :: tl) w =
      if i + 1 = len then
        .goto (P.addr "cmp_bignum") (len :: m :: lo :: P.addr "modmul_return_1" :: len :: a :: b :: m ::
            lo :: tl) (w.next.set (base w + (lo + i)) (w.inp 0))
      else .goto (P.addr "modmul_remainder_loop") ((i + 1) :: base w :: len :: a :: b :: m :: lo :: tl)
        (w.next.set (base w + (lo + i)) (w.inp 0)) := by
  rw [b_modmul_remainder_loop]
  kexec [m_swap_mstore, m_increment, m_add_const, exec_input']
  rw [wadd_small (a := i) (by omega), show base w = base w.next from rfl,
    wadd_base (w := w.next) hc (by omega), exec_store (w := w.next) hc (by omega)]
  kexec [m_pop2, rep]
  rw [wadd_small (by omega), Nat.add_comm 1 i, Nat.add_comm i lo]
  simp only [wsub_eq_zero (show i + 1 < 2 ^ 256 by omega) (show len < 2 ^ 256 by omega)]

/-- `asm/bignum/modmul.asm:28-60`: the prover's remainder. -/
theorem run_remainder (hP : P.Has bignumCode) {len a b m lo : Nat} {tl : List Nat} (hlo : lo + len ≤ 2 ^ 32) :
    ∀ (r i : Nat) (w : World), w.ctx < 2 ^ 32 → i + (r + 1) = len →
      ∃ w', Reaches P (exec P b_modmul_remainder_loop (i :: base w :: len :: a :: b :: m :: lo :: tl) w)
          (.goto (P.addr "cmp_bignum") (len :: m :: lo :: P.addr "modmul_return_1" :: len :: a :: b :: m ::
            lo :: tl) w') ∧ Taken w w' (lo + i) (r + 1) := by
  intro r
  induction r with
  | zero =>
    intro i w hc hi
    rw [remainder_body hlo hc (by omega), if_pos (by omega)]
    exact ⟨_, .refl _, .one⟩
  | succ r ih =>
    intro i w hc hi
    rw [remainder_body hlo hc (by omega), if_neg (by omega)]
    obtain ⟨w', h1, h2⟩ := ih (i + 1) (w.next.set (base w + (lo + i)) (w.inp 0)) hc (by omega)
    refine ⟨w', ?_, Taken.one.more h2⟩
    enter hP in bignumCode
    exact h1

/-- One round of `asm/bignum/modmul.asm:81-111`. -/
theorem quotient_body {len n2 a b m lo s1 s2 i : Nat} {tl : List Nat} {w : World} (hlo : s1 + n2 ≤ 2 ^ 32)
    (hc : w.ctx < 2 ^ 32) (hi : i < n2) :
    exec P b_modmul_quotient_loop (i :: base w :: n2 :: len :: a :: b :: m :: lo :: s1 :: s2 :: tl) w =
      if i + 1 = n2 then
        .goto (P.addr "mul_bignum") (len :: s1 :: m :: s2 :: P.addr "modmul_return_2" :: len :: a :: b ::
            lo :: s2 :: tl) (w.next.set (base w + (s1 + i)) (w.inp 0))
      else .goto (P.addr "modmul_quotient_loop")
        ((i + 1) :: base w :: n2 :: len :: a :: b :: m :: lo :: s1 :: s2 :: tl)
        (w.next.set (base w + (s1 + i)) (w.inp 0)) := by
  rw [b_modmul_quotient_loop]
  kexec [m_swap_mstore, m_increment, m_add_const, exec_input']
  rw [wadd_small (a := i) (by omega), show base w = base w.next from rfl,
    wadd_base (w := w.next) hc (by omega), exec_store (w := w.next) hc (by omega)]
  kexec [m_pop3, rep]
  rw [wadd_small (by omega), Nat.add_comm 1 i, Nat.add_comm i s1]
  simp only [wsub_eq_zero (show i + 1 < 2 ^ 256 by omega) (show n2 < 2 ^ 256 by omega)]

/-- `asm/bignum/modmul.asm:81-111`: the prover's quotient. -/
theorem run_quotient (hP : P.Has bignumCode) {len n2 a b m lo s1 s2 : Nat} {tl : List Nat}
    (hlo : s1 + n2 ≤ 2 ^ 32) :
    ∀ (r i : Nat) (w : World), w.ctx < 2 ^ 32 → i + (r + 1) = n2 →
      ∃ w', Reaches P (exec P b_modmul_quotient_loop
          (i :: base w :: n2 :: len :: a :: b :: m :: lo :: s1 :: s2 :: tl) w)
          (.goto (P.addr "mul_bignum") (len :: s1 :: m :: s2 :: P.addr "modmul_return_2" :: len :: a :: b ::
            lo :: s2 :: tl) w') ∧ Taken w w' (s1 + i) (r + 1) := by
  intro r
  induction r with
  | zero =>
    intro i w hc hi
    rw [quotient_body hlo hc (by omega), if_pos (by omega)]
    exact ⟨_, .refl _, .one⟩
  | succ r ih =>
    intro i w hc hi
    rw [quotient_body hlo hc (by omega), if_neg (by omega)]
    obtain ⟨w', h1, h2⟩ := ih (i + 1) (w.next.set (base w + (s1 + i)) (w.inp 0)) hc (by omega)
    refine ⟨w', ?_, Taken.one.more h2⟩
    enter hP in bignumCode
    exact h1

/-! ### The comparison of the two sides -/

/-- One round of `asm/bignum/modmul.asm:143-172`. -/
theorem check_body {n i j : Nat} {w : World} (hc : w.ctx < 2 ^ 32) (hi : i + (n + 1) ≤ 2 ^ 32)
    (hj : j + (n + 1) ≤ 2 ^ 32) (h1 : w.mem (base w + i) < 2 ^ 128) (h2 : w.mem (base w + j) < 2 ^ 128) :
    exec P b_modmul_check_loop (base w :: (n + 1) :: i :: j :: ret :: s) w =
      if w.mem (base w + i) = w.mem (base w + j) then
        if n = 0 then .goto ret s w
        else .goto (P.addr "modmul_check_loop") (base w :: n :: (i + 1) :: (j + 1) :: ret :: s) w
      else .goto (P.addr "panic") (base w :: (n + 1) :: i :: j :: ret :: s) w := by
  rw [b_modmul_check_loop]
  kexec []
  rw [wadd_base hc (by omega), exec_load hc (by omega)]
  kexec []
  rw [wadd_base hc (by omega), exec_load hc (by omega)]
  kexec [m_assert_eq0, m_increment, m_decrement, m_add_const, m_sub_const, m_pop4, rep]
  rw [wsub_small (a := n + 1) (by omega) (by omega), wadd_small (by omega), wadd_small (by omega),
    Nat.add_comm 1 i, Nat.add_comm 1 j, Nat.add_sub_cancel]
  simp only [wsub_eq_zero (show w.mem (base w + i) < 2 ^ 256 by omega) (show w.mem (base w + j) < 2 ^ 256 by omega)]

/-- `asm/bignum/modmul.asm:143-172`. -/
theorem run_check (hP : P.Has bigCode) {w : World} (hc : w.ctx < 2 ^ 32) :
    ∀ (n i j : Nat), i + (n + 1) ≤ 2 ^ 32 → j + (n + 1) ≤ 2 ^ 32 → Small (limbs w i) (n + 1) →
      Small (limbs w j) (n + 1) →
      Returns P (num (limbs w i) (n + 1) = num (limbs w j) (n + 1))
        (exec P b_modmul_check_loop (base w :: (n + 1) :: i :: j :: ret :: s) w) ret
        fun s' w' => s' = s ∧ w' = w ∧ num (limbs w i) (n + 1) = num (limbs w j) (n + 1) := by
  intro n
  induction n with
  | zero =>
    intro i j hi hj hsi hsj
    rw [check_body hc hi hj (hsi 0 (by omega)) (hsj 0 (by omega))]
    have e1 : num (limbs w i) (0 + 1) = w.mem (base w + i) := rfl
    have e2 : num (limbs w j) (0 + 1) = w.mem (base w + j) := rfl
    rw [e1, e2]
    split
    · rename_i h
      rw [if_pos rfl]; exact .ret ⟨rfl, rfl, h⟩
    · rename_i h
      exact .of (reach_panicB hP) (.panic h)
  | succ n ih =>
    intro i j hi hj hsi hsj
    have hi0 : w.mem (base w + i) < 2 ^ 128 := hsi 0 (by omega)
    have hj0 : w.mem (base w + j) < 2 ^ 128 := hsj 0 (by omega)
    rw [check_body hc hi hj hi0 hj0]
    simp only [num_succ _ _ (n + 1), limbs_zero]
    split
    · rename_i h
      rw [if_neg (by omega), h]
      renter hP.big in bignumCode
      refine (ih (i + 1) (j + 1) (by omega) (by omega) (small_succ.1 hsi).2 (small_succ.1 hsj).2).mono
        (fun h => by omega) ?_
      rintro _ _ ⟨rfl, rfl, h⟩
      exact ⟨rfl, rfl, by rw [h]⟩
    · rename_i h
      refine .of (reach_panicB hP) (.panic fun h' => h (by omega))

/-! ### The whole -/

/-- `a` is not one of the `n` cells from offset `l` of the general segment on. -/
def Outside (w : World) (l n a : Nat) : Prop := a < base w + l ∨ base w + l + n ≤ a

/-- Where the operands of `modmul_bignum` are: within the segment, outputs and scratch space apart from
everything else; `a` and `b` may be the same. -/
structure ModmulPlaces (n la lb lm lo s1 s2 s3 : Nat) : Prop where
  la_le : la + n ≤ 2 ^ 32
  lb_le : lb + n ≤ 2 ^ 32
  lm_le : lm + n ≤ 2 ^ 32
  lo_le : lo + n ≤ 2 ^ 32
  s1_le : s1 + 2 * n ≤ 2 ^ 32
  s2_le : s2 + 2 * n ≤ 2 ^ 32
  s3_le : s3 + 2 * n ≤ 2 ^ 32
  loa : Apart lo n la n
  lob : Apart lo n lb n
  lom : Apart lo n lm n
  s1a : Apart s1 (2 * n) la n
  s1b : Apart s1 (2 * n) lb n
  s1m : Apart s1 (2 * n) lm n
  s1o : Apart s1 (2 * n) lo n
  s2a : Apart s2 (2 * n) la n
  s2b : Apart s2 (2 * n) lb n
  s2m : Apart s2 (2 * n) lm n
  s2o : Apart s2 (2 * n) lo n
  s21 : Apart s2 (2 * n) s1 (2 * n)
  s3a : Apart s3 (2 * n) la n
  s3b : Apart s3 (2 * n) lb n
  s3o : Apart s3 (2 * n) lo n
  s31 : Apart s3 (2 * n) s1 (2 * n)
  s32 : Apart s3 (2 * n) s2 (2 * n)

theorem num_low {f : Nat → Nat} {n : Nat} (h : Small f n) : num f n = num f (2 * n) % (2 ^ 128) ^ n := by
  rw [Nat.two_mul, num_append, Nat.add_mul_mod_self_left, Nat.mod_eq_of_lt (num_lt h)]

theorem Apart.symm {l n l' k : Nat} (h : Apart l n l' k) : Apart l' k l n := Or.symm h

theorem Apart.left {l n n' l' k : Nat} (h : Apart l n l' k) (hn : n' ≤ n) : Apart l n' l' k := by
  simp only [Apart] at *; omega

/-- What `modmul_bignum` checks of the prover's remainder `x` and of the low half `k` of the prover's
quotient (`asm/bignum/modmul.asm:10-14`): `x < m`, and `x + k * m = a * b` in the low `n` limbs. -/
def Accepted (n a b m x k : Nat) : Prop :=
  x < m ∧ (x + k * m) % (2 ^ 128) ^ n = (a * b) % (2 ^ 128) ^ n

/-- `asm/bignum/modmul.asm:15-178`, for a prover that supplies limbs: the run comes back if and only if
the prover's numbers are accepted, with the prover's remainder. -/
theorem run_modmul (hP : P.Has bigCode) {w : World} {n la lb lm lo s1 s2 s3 : Nat} (hn : 0 < n)
    (hc : w.ctx < 2 ^ 32) (hp : ModmulPlaces n la lb lm lo s1 s2 s3)
    (hsa : Small (limbs w la) n) (hsb : Small (limbs w lb) n) (hsm : Small (limbs w lm) n)
    (hz2 : ∀ i < n, limbs w s2 i = 0) (hz3 : ∀ i < n, limbs w s3 i = 0) (hin : Small w.inp (2 * n)) :
    Returns P
      (Accepted n (num (limbs w la) n) (num (limbs w lb) n) (num (limbs w lm) n) (num w.inp n)
        (num (fun i => w.inp (n + i)) n))
      (.goto (P.addr "modmul_bignum") (n :: la :: lb :: lm :: lo :: s1 :: s2 :: s3 :: ret :: s) w) ret
      fun s' w' => s' = s ∧
        Accepted n (num (limbs w la) n) (num (limbs w lb) n) (num (limbs w lm) n) (num w.inp n)
          (num (fun i => w.inp (n + i)) n) ∧
        num (limbs w' lo) n = num w.inp n ∧ Small (limbs w' lo) n ∧
        w'.ctx = w.ctx ∧ (w'.inp = fun j => w.inp (3 * n + j)) ∧
        ∀ a, Outside w lo n a → Outside w s1 (2 * n) a → Outside w s2 (2 * n) a →
          Outside w s3 (2 * n) a → w'.mem a = w.mem a := by
  obtain ⟨n, rfl⟩ : ∃ k, n = k + 1 := ⟨n - 1, by omega⟩
  obtain ⟨hla, hlb, hlm, hlo, hs1, hs2, hs3, hoa, hob, hom, h1a, h1b, h1m, h1o, h2a, h2b, h2m, h2o, h21, h3a, h3b,
    h3o, h31, h32⟩ := hp
  renter hP.big in bignumCode
  rw [b_modmul_bignum]
  -- the remainder
  obtain ⟨w1, r1, t1, k1, i1⟩ := run_remainder (P := P) hP.big (a := la) (b := lb) (m := lm)
    (tl := s1 :: s2 :: s3 :: ret :: s) hlo n 0 w hc (by omega)
  generalize b_modmul_remainder_loop = t at r1 ⊢
  kexec [ne_eq, Nat.add_one_ne_zero, not_false_iff]
  rw [exec_general, general_base hc]
  kexec []
  refine .of r1 ?_
  clear r1 t
  have c1 : w1.ctx < 2 ^ 32 := by rw [k1.1]; exact hc
  have hX : num (limbs w1 lo) (n + 1) = num w.inp (n + 1) := num_congr t1
  have hsX : Small (limbs w1 lo) (n + 1) := fun i hi => by
    have := t1 i hi
    rw [Nat.add_zero] at this
    rw [this]; exact hin i (by omega)
  rw [Nat.add_zero] at k1
  have hM1 := k1.num_eq hom
  have hsM1 := k1.small hom hsm
  refine .of (run_cmp hP.big c1 hlm hlo hsM1 hsX) ?_
  rw [hM1, hX]
  renter hP.big in bignumCode
  rw [b_modmul_return_1]
  obtain ⟨w2, r2, t2, k2, i2⟩ := run_quotient (P := P) hP.big (len := n + 1) (a := la) (b := lb) (m := lm)
    (lo := lo) (s2 := s2) (tl := s3 :: ret :: s) hs1 (2 * n + 1) 0 w1 c1 (by omega)
  generalize b_modmul_quotient_loop = t at r2 ⊢
  kexec [m_assert_eq0, m_mul_const]
  split
  case isFalse h =>
    refine .of (reach_panicB hP) (.panic fun hA => h ?_)
    rw [cmpWord_gt hA.1]; rfl
  case isTrue h =>
  have hXM : num w.inp (n + 1) < num (limbs w lm) (n + 1) := by
    by_contra hge
    rcases Nat.lt_or_eq_of_le (Nat.not_lt.1 hge) with h' | h'
    · rw [cmpWord_lt h'] at h; exact absurd h (by decide)
    · rw [cmpWord_eq h'] at h; exact absurd h (by decide)
  clear h
  rw [exec_general, general_base c1, wmul_small (by omega)]
  kexec []
  refine .of r2 ?_
  clear r2 t
  -- the quotient times the modulus
  replace k2 : Leaves w1 w2 s1 (2 * (n + 1)) := k2
  have c2 : w2.ctx < 2 ^ 32 := by rw [k2.1]; exact c1
  have hK : num (limbs w2 s1) (n + 1) = num (fun i => w.inp (n + 1 + i)) (n + 1) := num_congr fun i hi => by
    have := t2 i (by omega)
    rw [i1] at this; exact this
  have hsK : Small (limbs w2 s1) (n + 1) := fun i hi => by
    have := t2 i (by omega)
    rw [i1, Nat.add_zero] at this
    rw [this]; exact hin _ (by omega)
  have hM2 := (k2.num_eq h1m).trans hM1
  obtain ⟨w3, r3, v3, s3', k3, i3⟩ := run_mul (ret := P.addr "modmul_return_2")
    (s := (n + 1) :: la :: lb :: lo :: s2 :: s3 :: ret :: s) hP.big c2 (la := s1) (lb := lm) (lo := s2) (n := n + 1)
    (by omega) hlm hs2 (by simp only [Apart] at *; omega) h2m hsK (k2.small h1m hsM1)
    (fun i hi => by
      rw [k2.limbs_eq h21.symm (show i < 2 * (n + 1) by omega),
        k1.limbs_eq h2o.symm (show i < 2 * (n + 1) by omega)]
      exact hz2 i hi)
  refine .of r3 ?_
  clear r3
  rw [hK, hM2] at v3
  have c3 : w3.ctx < 2 ^ 32 := by rw [k3.1]; exact c2
  have hX3 := ((k3.num_eq h2o).trans (k2.num_eq h1o)).trans hX
  have hsX3 := k3.small h2o (k2.small h1o hsX)
  renter hP.big in bignumCode
  kexec [b_modmul_return_2]
  -- plus the remainder
  obtain ⟨c, w4, r4, v4, -, s4', k4, i4⟩ := run_add (ret := P.addr "modmul_return_3")
    (s := (n + 1) :: la :: lb :: s2 :: s3 :: ret :: s) hP.big c3 (la := s2) (lb := lo) (n := n + 1)
    (by omega) hlo (h2o.left (by omega)) (s3'.le (by omega)) hsX3
  refine .of r4 ?_
  clear r4
  rw [hX3] at v4
  have c4 : w4.ctx < 2 ^ 32 := by rw [k4.1]; exact c3
  replace k4 := k4.widen (l' := s2) (n' := 2 * (n + 1)) (by omega) (by omega)
  renter hP.big in bignumCode
  kexec [b_modmul_return_3]
  -- the product
  have ea : ∀ {l}, Apart lo (n + 1) l (n + 1) → Apart s1 (2 * (n + 1)) l (n + 1) → Apart s2 (2 * (n + 1)) l (n + 1) →
      ∀ i < n + 1, limbs w4 l i = limbs w l i := fun h1 h2 h3 i hi => by
    rw [k4.limbs_eq h3 hi, k3.limbs_eq h3 hi, k2.limbs_eq h2 hi, k1.limbs_eq h1 hi]
  have hA4 := num_congr (ea hoa h1a h2a)
  have hB4 := num_congr (ea hob h1b h2b)
  obtain ⟨w5, r5, v5, s5', k5, i5⟩ := run_mul (ret := P.addr "modmul_return_4")
    (s := (n + 1) :: s2 :: s3 :: ret :: s) hP.big c4 (la := la) (lb := lb) (lo := s3) (n := n + 1)
    hla hlb hs3 h3a h3b (fun i hi => by rw [ea hoa h1a h2a i hi]; exact hsa i hi)
    (fun i hi => by rw [ea hob h1b h2b i hi]; exact hsb i hi)
    (fun i hi => by
      have hi' : i < 2 * (n + 1) := by omega
      rw [k4.limbs_eq h32.symm hi', k3.limbs_eq h32.symm hi', k2.limbs_eq h31.symm hi', k1.limbs_eq h3o.symm hi']
      exact hz3 i hi)
  refine .of r5 ?_
  clear r5
  rw [hA4, hB4] at v5
  have c5 : w5.ctx < 2 ^ 32 := by rw [k5.1]; exact c4
  renter hP.big in bignumCode
  rw [b_modmul_return_4, exec_general, general_base c5]
  -- the comparison
  have h32' : Apart s3 (2 * (n + 1)) s2 (n + 1) := by simp only [Apart] at *; omega
  have e1 : num (limbs w5 s2) (n + 1) = (num w.inp (n + 1) + num (fun i => w.inp (n + 1 + i)) (n + 1)
      * num (limbs w lm) (n + 1)) % (2 ^ 128) ^ (n + 1) := by
    rw [k5.num_eq h32', ← Nat.mod_eq_of_lt (num_lt s4'), ← Nat.add_mul_mod_self_right _ c, v4,
      num_low (s3'.le (by omega)), v3, Nat.mod_add_mod, Nat.add_comm]
  have e2 : num (limbs w5 s3) (n + 1) = (num (limbs w la) (n + 1) * num (limbs w lb) (n + 1))
      % (2 ^ 128) ^ (n + 1) := by
    rw [num_low (s5'.le (by omega)), v5]
  refine (run_check hP c5 n s2 s3 (by omega) (by omega) (k5.small h32' s4') (s5'.le (by omega))).mono ?_ ?_
  · intro hA; rw [e1, e2]; exact hA.2
  rintro _ _ ⟨rfl, rfl, h⟩
  rw [e1, e2] at h
  refine ⟨rfl, ⟨hXM, h⟩, ?_, ?_, ?_, ?_, ?_⟩
  · rw [k5.num_eq h3o, k4.num_eq h2o, hX3]
  · exact k5.small h3o (k4.small h2o hsX3)
  · rw [k5.1, k4.1, k3.1, k2.1, k1.1]
  · rw [i5, i4, i3, i2, i1]; funext j
    show w.inp (n + 1 + (2 * n + 1 + 1 + j)) = _
    congr 1; omega
  · intro x o1 o2 o3 o4
    simp only [Outside] at o1 o2 o3 o4
    have b1 := k1.base_eq
    have b2 := k2.base_eq
    have b3 := k3.base_eq
    have b4 := k4.base_eq
    rw [k5.2 _ (by omega), k4.2 _ (by omega), k3.2 _ (by omega), k2.2 _ (by omega), k1.2 _ (by omega)]

end Verif.Kasm
