import Verif.Kasm.BignumClaims
import Verif.Kasm.CopyClaims
import Verif.Kasm.Code.Modexp

/-! Runs of the kernel's modular exponentiation (`asm/bignum/modexp.asm`). -/

namespace Verif.Kasm

open I

variable {P : Prog} {ret n lb le lm lo s1 s2 : Nat} {s : List Nat}

/-- The code of the exponentiation and of everything it calls. -/
structure Prog.Powers (P : Prog) : Prop where
  exp : P.Has modexpCode
  mul : P.Has bigCode
  copies : P.Copies

/-- The arguments of `modexp_bignum`; the four last scratch spaces are one after another
(`asm/bignum/modexp.asm:1-9`, `114-115`). -/
def expArgs (n lb le lm lo s1 s2 ret : Nat) (s : List Nat) : List Nat :=
  n :: lb :: le :: lm :: lo :: s1 :: s2 :: (s2 + 2 * n) :: (s2 + 4 * n) :: (s2 + 6 * n) :: ret :: s

/-- Where they are: within the segment and apart from each other. -/
structure ExpPlaces (n lb le lm lo s1 s2 : Nat) : Prop where
  lb_le : lb + n ≤ 2 ^ 32
  le_le : le + n ≤ 2 ^ 32
  lm_le : lm + n ≤ 2 ^ 32
  lo_le : lo + n ≤ 2 ^ 32
  s1_le : s1 + n ≤ 2 ^ 32
  s2_le : s2 + 8 * n ≤ 2 ^ 32
  b1 : Apart lb n s1 n
  bo : Apart lb n lo n
  b2 : Apart lb n s2 (8 * n)
  em : Apart le n lm n
  eo : Apart le n lo n
  e1 : Apart le n s1 n
  e2 : Apart le n s2 (8 * n)
  mo : Apart lm n lo n
  m1 : Apart lm n s1 n
  m2 : Apart lm n s2 (8 * n)
  o1 : Apart lo n s1 n
  o2 : Apart lo n s2 (8 * n)
  i2 : Apart s1 n s2 (8 * n)

/-- What is in memory between two rounds. -/
structure ExpAt (n le lm lo s1 s2 : Nat) (w : World) (e m X Y : Nat) : Prop where
  ctx : w.ctx < 2 ^ 32
  holdsE : Holds w le n e
  holdsM : Holds w lm n m
  holdsX : Holds w s1 n X
  holdsY : Holds w lo n Y
  zero : ∀ i < 8 * n, limbs w s2 i = 0

/-- What an exponentiation may change. -/
def ExpFrame (n le lo s1 s2 : Nat) (w w' : World) : Prop :=
  w'.ctx = w.ctx ∧ ∀ a, Outside w le n a → Outside w lo n a → Outside w s1 n a → Outside w s2 (8 * n) a →
    w'.mem a = w.mem a

theorem ExpFrame.refl (w : World) : ExpFrame n le lo s1 s2 w w := ⟨rfl, fun _ _ _ _ _ => rfl⟩

theorem ExpFrame.trans {w w' w'' : World} (h : ExpFrame n le lo s1 s2 w w') (h' : ExpFrame n le lo s1 s2 w' w'') :
    ExpFrame n le lo s1 s2 w w'' := by
  have hb : base w' = base w := by simp only [base, h.1]
  refine ⟨h'.1.trans h.1, fun a a1 a2 a3 a4 => ?_⟩
  rw [h'.2 a (by simp only [Outside, hb] at *; exact a1) (by simp only [Outside, hb] at *; exact a2)
    (by simp only [Outside, hb] at *; exact a3) (by simp only [Outside, hb] at *; exact a4)]
  exact h.2 a a1 a2 a3 a4

theorem Holds.congr {w w' : World} {l x : Nat} (h : Holds w l n x) (hl : ∀ i < n, limbs w' l i = limbs w l i) :
    Holds w' l n x := by
  obtain ⟨h1, h2⟩ := Holds.iff.1 h
  exact Holds.iff.2 ⟨fun i hi => by rw [hl i hi]; exact h1 i hi, (num_congr hl).trans h2⟩

/-! ### One multiplication, put in its place -/

/-- The prover's remainder and quotient in a round, and what is left of its inputs. -/
def inpX (n : Nat) (inp : Nat → Nat) : Nat := num inp n
def inpK (n : Nat) (inp : Nat → Nat) : Nat := num (fun i => inp (n + i)) n
def inpRest (n : Nat) (inp : Nat → Nat) : Nat → Nat := fun j => inp (3 * n + j)

theorem run_mul_to (hP : P.Powers) {w : World} {la A X m : Nat} {st : List Nat} (hn : 0 < n) (hc : w.ctx < 2 ^ 32)
    (pl : ExpPlaces n lb le lm lo s1 s2) (hla : la + n ≤ 2 ^ 32) (ha2 : Apart la n s2 (8 * n))
    (hA : Holds w la n A) (hX : Holds w s1 n X) (hM : Holds w lm n m)
    (hz : ∀ i < 8 * n, limbs w s2 i = 0) (hin : ∀ i, w.inp i < 2 ^ 128) :
    Returns P (Accepted n A X m (inpX n w.inp) (inpK n w.inp))
      (.goto (P.addr "modmul_bignum")
        (n :: la :: s1 :: lm :: (s2 + 6 * n) :: s2 :: (s2 + 2 * n) :: (s2 + 4 * n) :: ret :: st) w) ret
      fun s' w' => s' = st ∧ Accepted n A X m (inpX n w.inp) (inpK n w.inp) ∧
        num (limbs w' (s2 + 6 * n)) n = inpX n w.inp ∧ Small (limbs w' (s2 + 6 * n)) n ∧
        w'.inp = inpRest n w.inp ∧ Leaves w w' s2 (8 * n) := by
  obtain ⟨sa, rfl⟩ := Holds.iff.1 hA
  obtain ⟨sx, rfl⟩ := Holds.iff.1 hX
  obtain ⟨sm, rfl⟩ := Holds.iff.1 hM
  obtain ⟨hlb, hle, hlm, hlo, hs1, hs2, -, -, -, -, -, -, -, -, -, hm2, -, -, hi2⟩ := pl
  refine (run_modmul hP.mul hn hc ?_ sa sx sm ?_ ?_ fun i _ => hin i).mono id ?_
  · simp only [Apart] at *
    refine ⟨?_, ?_, ?_, ?_, ?_, ?_, ?_, ?_, ?_, ?_, ?_, ?_, ?_, ?_, ?_, ?_, ?_, ?_, ?_, ?_, ?_, ?_, ?_, ?_⟩ <;>
      first | omega | (simp only [Apart]; omega)
  · intro i hi
    have := hz (2 * n + i) (by omega)
    simp only [limbs] at *
    rw [← this]; congr 1; omega
  · intro i hi
    have := hz (4 * n + i) (by omega)
    simp only [limbs] at *
    rw [← this]; congr 1; omega
  · rintro s' w' ⟨h1, h2, h3, h4, h5, h6, h7⟩
    refine ⟨h1, h2, h3, h4, h6, h5, fun a ha => h7 a ?_ ?_ ?_ ?_⟩ <;> simp only [Outside] <;> omega

theorem cleared_mem {w : World} {B la r s2 k n a : Nat} : ((w.copy (B + la) r n).clear (B + s2) k).mem a =
    if B + s2 ≤ a ∧ a < B + s2 + k then 0 else
    if B + la ≤ a ∧ a < B + la + n then w.mem (r + (a - (B + la))) else w.mem a := rfl

theorem copied_ctx {w : World} {d r n : Nat} : (w.copy d r n).ctx = w.ctx := rfl
theorem copied_inp {w : World} {d r n : Nat} : (w.copy d r n).inp = w.inp := rfl
theorem cleared_ctx {w : World} {d r n d' k : Nat} : ((w.copy d r n).clear d' k).ctx = w.ctx := rfl
theorem cleared_inp {w : World} {d r n d' k : Nat} : ((w.copy d r n).clear d' k).inp = w.inp := rfl

theorem base_congr {w w' : World} (h : w'.ctx = w.ctx) : base w' = base w := by simp only [base, h]

theorem put_back_mem {w w' w2 : World} {B la : Nat} (ha2 : Apart la n s2 (8 * n))
    (hk : ∀ a, (a < B + s2 ∨ B + s2 + 8 * n ≤ a) → w'.mem a = w.mem a)
    (hm : ∀ a, w2.mem a = if B + s2 ≤ a ∧ a < B + s2 + 8 * n then 0 else
      if B + la ≤ a ∧ a < B + la + n then w'.mem (B + (s2 + 6 * n) + (a - (B + la))) else w'.mem a) :
    (∀ i < n, w2.mem (B + (la + i)) = w'.mem (B + (s2 + 6 * n + i))) ∧
      (∀ i < 8 * n, w2.mem (B + (s2 + i)) = 0) ∧
      ∀ a, (a < B + la ∨ B + la + n ≤ a) → (a < B + s2 ∨ B + s2 + 8 * n ≤ a) → w2.mem a = w.mem a := by
  simp only [Apart] at ha2
  refine ⟨fun i hi => ?_, fun i hi => ?_, fun a h1 h2 => ?_⟩
  · rw [hm, if_neg (by omega), if_pos (by omega)]
    congr 1; omega
  · rw [hm, if_pos (by omega)]
  · rw [hm, if_neg (by omega), if_neg (by omega)]
    exact hk a h2

/-- Copying the result to its place and clearing the scratch space. -/
theorem put_back {w w' w2 : World} {la : Nat} (k : Leaves w w' s2 (8 * n)) (ha2 : Apart la n s2 (8 * n))
    (h2 : w2 = (w'.copy (base w + la) (base w + (s2 + 6 * n)) n).clear (base w + s2) (8 * n)) :
    w2.ctx = w.ctx ∧ w2.inp = w'.inp ∧ (∀ i < n, limbs w2 la i = limbs w' (s2 + 6 * n) i) ∧
      (∀ i < 8 * n, limbs w2 s2 i = 0) ∧
      ∀ a, Outside w la n a → Outside w s2 (8 * n) a → w2.mem a = w.mem a := by
  have hb : base w' = base w := k.base_eq
  have hc2 : w2.ctx = w.ctx := by rw [h2, cleared_ctx]; exact k.1
  have hb2 : base w2 = base w := base_congr hc2
  have hi2 : w2.inp = w'.inp := by rw [h2, cleared_inp]
  obtain ⟨h3, h4, h5⟩ := put_back_mem (B := base w) (w := w) (w2 := w2) ha2 k.2 fun a => by rw [h2, cleared_mem]
  refine ⟨hc2, hi2, ?_, ?_, h5⟩
  · simp only [limbs, hb2, hb]; exact h3
  · simp only [limbs, hb2]; exact h4

theorem span_general {w : World} {l k : Nat} (hc : w.ctx < 2 ^ 32) (hl : l + k ≤ 2 ^ 32) (hk : 0 < k) : Span (base w + l) k := by
  refine ⟨?_, ?_, ?_⟩
  · simp only [base]; omega
  · simp only [SegOk, base]; omega
  · simp only [base]; omega

theorem limbs_outside {w w2 : World} {la l : Nat} (hb : base w2 = base w)
    (hm : ∀ a, Outside w la n a → Outside w s2 (8 * n) a → w2.mem a = w.mem a) (h1 : Apart l n la n)
    (h2 : Apart l n s2 (8 * n)) : ∀ i < n, limbs w2 l i = limbs w l i := by
  intro i hi
  simp only [limbs, hb]
  simp only [Outside] at hm
  generalize base w = B at *
  simp only [Apart] at h1 h2
  exact hm _ (by omega) (by omega)

/-- `asm/bignum/modexp.asm:97-121`: `out := out * x`. -/
theorem run_mul_part (hP : P.Powers) {w : World} {e m X Y : Nat} (hn : 0 < n) (pl : ExpPlaces n lb le lm lo s1 s2)
    (h : ExpAt n le lm lo s1 s2 w e m X Y) (hin : ∀ i, w.inp i < 2 ^ 128) :
    Returns P (Accepted n Y X m (inpX n w.inp) (inpK n w.inp))
      (.goto (P.addr "modmul_bignum")
        (n :: lo :: s1 :: lm :: (s2 + 6 * n) :: s2 :: (s2 + 2 * n) :: (s2 + 4 * n) :: P.addr "modexp_mul_return" ::
          expArgs n lb le lm lo s1 s2 ret s) w)
      (P.addr "modexp@3.after")
      fun s' w' => s' = expArgs n lb le lm lo s1 s2 ret s ∧ Accepted n Y X m (inpX n w.inp) (inpK n w.inp) ∧
        ExpAt n le lm lo s1 s2 w' e m X (inpX n w.inp) ∧ w'.inp = inpRest n w.inp ∧ ExpFrame n le lo s1 s2 w w' := by
  refine Returns.andThen (run_mul_to hP hn h.ctx pl pl.lo_le pl.o2 h.holdsY h.holdsX h.holdsM h.zero hin) ?_
  rintro _ w1 ⟨rfl, hA, v1, t1, i1, k1⟩
  have hc1 : w1.ctx < 2 ^ 32 := by rw [k1.1]; exact h.ctx
  have hb1 := k1.base_eq
  have hlo := pl.lo_le
  have hs2 := pl.s2_le
  have o2 := pl.o2
  obtain ⟨w2, hw2⟩ : ∃ w2, w2 = (w1.copy (base w + lo) (base w + (s2 + 6 * n)) n).clear (base w + s2) (8 * n) := ⟨_, rfl⟩
  obtain ⟨p1, p2, p3, p4, p5⟩ := put_back k1 o2 hw2
  have hb2 := base_congr p1
  renter hP.exp in modexpCode
  rw [b_modexp_mul_return, expArgs]
  kexec []
  rw [exec_general, general_base hc1]
  kexec []
  rw [wadd_base hc1 (by omega), wadd_base' hc1 (by omega), hb1]
  refine .of (run_memcpy hP.copies.has n _ _ w1 (by rw [← hb1]; exact span_general hc1 (by omega) hn)
    (by rw [← hb1]; exact span_general hc1 (by omega) hn) (by simp only [Apart] at o2; omega)) ?_
  have hcc : (w1.copy (base w + lo) (base w + (s2 + 6 * n)) n).ctx = w.ctx := by rw [copied_ctx]; exact k1.1
  have hr := run_memset (s := expArgs n lb le lm lo s1 s2 ret s) (ret := P.addr "modexp@3.after") hP.copies (8 * n) (base w + s2)
    (w1.copy (base w + lo) (base w + (s2 + 6 * n)) n) (by rw [← hb1]; exact span_general hc1 (by omega) (by omega))
  rw [← hw2] at hr
  generalize w1.copy (base w + lo) (base w + (s2 + 6 * n)) n = wc at *
  have hcc' : wc.ctx < 2 ^ 32 := by rw [hcc]; exact h.ctx
  renter hP.exp in modexpCode
  rw [b_modexp_2_after]
  kexec [m_mul_const, m_build_current_general_address, m_build_address]
  rw [general_base hcc', base_congr hcc, wadd_base h.ctx (by omega), wmul_small (by omega)]
  refine .of hr (.ret ⟨rfl, hA, ⟨by rw [p1]; exact h.ctx, ?_, ?_, ?_, ?_, p4⟩, p2.trans i1, p1, ?_⟩)
  · exact h.holdsE.congr (limbs_outside hb2 p5 pl.eo pl.e2)
  · exact h.holdsM.congr (limbs_outside hb2 p5 pl.mo pl.m2)
  · exact h.holdsX.congr (limbs_outside hb2 p5 pl.o1.symm pl.i2)
  · exact Holds.iff.2 ⟨fun i hi => by rw [p3 i hi]; exact t1 i hi, (num_congr p3).trans v1⟩
  · intro a a1 a2 a3 a4
    exact p5 a a2 a4

/-- `asm/bignum/modexp.asm:122-155`: `x := x * x`. -/
theorem run_square_part (hP : P.Powers) {w : World} {e m X Y : Nat} (hn : 0 < n) (pl : ExpPlaces n lb le lm lo s1 s2)
    (h : ExpAt n le lm lo s1 s2 w e m X Y) (hin : ∀ i, w.inp i < 2 ^ 128) :
    Returns P (Accepted n X X m (inpX n w.inp) (inpK n w.inp))
      (exec P b_modexp_y_0 (expArgs n lb le lm lo s1 s2 ret s) w)
      (P.addr "modexp@5.after")
      fun s' w' => s' = expArgs n lb le lm lo s1 s2 ret s ∧ Accepted n X X m (inpX n w.inp) (inpK n w.inp) ∧
        ExpAt n le lm lo s1 s2 w' e m (inpX n w.inp) Y ∧ w'.inp = inpRest n w.inp ∧ ExpFrame n le lo s1 s2 w w' := by
  rw [b_modexp_y_0, expArgs]
  kexec []
  refine Returns.andThen (run_mul_to (st := expArgs n lb le lm lo s1 s2 ret s) hP hn h.ctx pl pl.s1_le pl.i2 h.holdsX h.holdsX
    h.holdsM h.zero hin) ?_
  rintro _ w1 ⟨rfl, hA, v1, t1, i1, k1⟩
  have hc1 : w1.ctx < 2 ^ 32 := by rw [k1.1]; exact h.ctx
  have hb1 := k1.base_eq
  have hs1 := pl.s1_le
  have hs2 := pl.s2_le
  have o2 := pl.i2
  obtain ⟨w2, hw2⟩ : ∃ w2, w2 = (w1.copy (base w + s1) (base w + (s2 + 6 * n)) n).clear (base w + s2) (8 * n) := ⟨_, rfl⟩
  obtain ⟨p1, p2, p3, p4, p5⟩ := put_back k1 o2 hw2
  have hb2 := base_congr p1
  renter hP.exp in modexpCode
  rw [b_modexp_square_return, expArgs]
  kexec []
  rw [exec_general, general_base hc1]
  kexec []
  rw [wadd_base hc1 (by omega), wadd_base' hc1 (by omega), hb1]
  refine .of (run_memcpy hP.copies.has n _ _ w1 (by rw [← hb1]; exact span_general hc1 (by omega) hn)
    (by rw [← hb1]; exact span_general hc1 (by omega) hn) (by simp only [Apart] at o2; omega)) ?_
  have hcc : (w1.copy (base w + s1) (base w + (s2 + 6 * n)) n).ctx = w.ctx := by rw [copied_ctx]; exact k1.1
  have hr := run_memset (s := expArgs n lb le lm lo s1 s2 ret s) (ret := P.addr "modexp@5.after") hP.copies (8 * n) (base w + s2)
    (w1.copy (base w + s1) (base w + (s2 + 6 * n)) n) (by rw [← hb1]; exact span_general hc1 (by omega) (by omega))
  rw [← hw2] at hr
  generalize w1.copy (base w + s1) (base w + (s2 + 6 * n)) n = wc at *
  have hcc' : wc.ctx < 2 ^ 32 := by rw [hcc]; exact h.ctx
  renter hP.exp in modexpCode
  rw [b_modexp_4_after]
  kexec [m_mul_const, m_build_current_general_address, m_build_address]
  rw [general_base hcc', base_congr hcc, wadd_base h.ctx (by omega), wmul_small (by omega)]
  refine .of hr (.ret ⟨rfl, hA, ⟨by rw [p1]; exact h.ctx, ?_, ?_, ?_, ?_, p4⟩, p2.trans i1, p1, ?_⟩)
  · exact h.holdsE.congr (limbs_outside hb2 p5 pl.e1 pl.e2)
  · exact h.holdsM.congr (limbs_outside hb2 p5 pl.m1 pl.m2)
  · exact Holds.iff.2 ⟨fun i hi => by rw [p3 i hi]; exact t1 i hi, (num_congr p3).trans v1⟩
  · exact h.holdsY.congr (limbs_outside hb2 p5 pl.o1 pl.o2)
  · intro a a1 a2 a3 a4
    exact p5 a a3 a4

/-! ### The loop -/

/-- The inputs for the squaring of a round with exponent `e`, and the result after the round. -/
def inpMid (n e : Nat) (inp : Nat → Nat) : Nat → Nat := if e % 2 = 1 then inpRest n inp else inp
def nextY (n e Y : Nat) (inp : Nat → Nat) : Nat := if e % 2 = 1 then inpX n inp else Y

/-- The prover's numbers are accepted in a round that starts with the exponent `e`, the power `X` and the
result so far `Y`. -/
def roundAccepted (n m e X Y : Nat) (inp : Nat → Nat) : Prop :=
  (e % 2 = 1 → Accepted n Y X m (inpX n inp) (inpK n inp)) ∧
    Accepted n X X m (inpX n (inpMid n e inp)) (inpK n (inpMid n e inp))

/-- The prover's numbers are accepted in `r` rounds. -/
def expAccepted (n m : Nat) : (r e X Y : Nat) → (Nat → Nat) → Prop
  | 0, _, _, _, _ => True
  | r + 1, e, X, Y, inp => roundAccepted n m e X Y inp ∧
      expAccepted n m r (e / 2) (inpX n (inpMid n e inp)) (nextY n e Y inp) (inpRest n (inpMid n e inp))

/-- The result of `r` rounds. -/
def expResult (n : Nat) : (r e Y : Nat) → (Nat → Nat) → Nat
  | 0, _, Y, _ => Y
  | r + 1, e, Y, inp => expResult n r (e / 2) (nextY n e Y inp) (inpRest n (inpMid n e inp))

/-- `r` is the number of binary digits of `e`, or 1 for 0. -/
def Digits (e r : Nat) : Prop := 0 < r ∧ e < 2 ^ r ∧ (r = 1 ∨ 2 ^ (r - 1) ≤ e)

theorem Digits.half {e r : Nat} (h : Digits e (r + 1)) (h2 : e / 2 ≠ 0) : Digits (e / 2) r := by
  obtain ⟨-, h3, h4⟩ := h
  match r with
  | 0 => simp at h3; omega
  | r + 1 =>
    refine ⟨by omega, by rw [pow_succ] at h3; omega, ?_⟩
    rcases h4 with h4 | h4
    · omega
    · match r with
      | 0 => exact .inl rfl
      | r + 1 =>
        right
        simp only [Nat.add_sub_cancel] at *
        rw [pow_succ] at h4; omega

theorem Digits.last {e r : Nat} (h : Digits e (r + 1)) (h2 : e / 2 = 0) : r = 0 := by
  obtain ⟨-, h3, h4⟩ := h
  match r with
  | 0 => rfl
  | r + 1 =>
    rcases h4 with h4 | h4
    · omega
    · simp only [Nat.add_sub_cancel] at h4
      have : 0 < 2 ^ r := by positivity
      rw [pow_succ] at h4; omega

theorem Holds.odd {w : World} {l x : Nat} (h : Holds w l n x) (hn : 0 < n) : w.mem (base w + l) % 2 = x % 2 := by
  obtain ⟨-, rfl⟩ := Holds.iff.1 h
  obtain ⟨k, rfl⟩ : ∃ k, n = k + 1 := ⟨n - 1, by omega⟩
  rw [num_succ, limbs_zero]
  omega

/-- The end of a round (`asm/bignum/modexp.asm:156-183`): the exponent is halved, and another round begins
unless it is zero. -/
theorem run_round_end (hP : P.Powers) {w : World} {e m X Y : Nat} (pl : ExpPlaces n lb le lm lo s1 s2)
    (h : ExpAt n le lm lo s1 s2 w e m X Y) :
    ∃ w', Reaches P (.goto (P.addr "modexp@5.after") (expArgs n lb le lm lo s1 s2 ret s) w)
        (if e / 2 = 0 then .goto ret s w' else .goto (P.addr "modexp_loop") (expArgs n lb le lm lo s1 s2 ret s) w') ∧
      ExpAt n le lm lo s1 s2 w' (e / 2) m X Y ∧ w'.inp = w.inp ∧ ExpFrame n le lo s1 s2 w w' := by
  obtain ⟨se, ve⟩ := Holds.iff.1 h.holdsE
  obtain ⟨w', r, v, sm, k, i⟩ := run_shr (ret := P.addr "modexp_shr_return") (s := expArgs n lb le lm lo s1 s2 ret s)
    hP.mul.big h.ctx pl.le_le se
  rw [ve] at v
  have hc' : w'.ctx < 2 ^ 32 := by rw [k.1]; exact h.ctx
  refine ⟨w', ?_, ⟨hc', Holds.iff.2 ⟨sm, v⟩, h.holdsM.congr fun i hi => k.limbs_eq pl.em hi,
    h.holdsX.congr fun i hi => k.limbs_eq pl.e1 hi, h.holdsY.congr fun i hi => k.limbs_eq pl.eo hi,
    fun i hi => by rw [k.limbs_eq pl.e2 hi]; exact h.zero i hi⟩, i, k.1, fun a a1 _ _ _ => k.2 a a1⟩
  enter hP.exp in modexpCode
  rw [b_modexp_5_after]
  simp only [expArgs] at r ⊢
  kexec []
  refine r.trans ?_
  enter hP.exp in modexpCode
  rw [b_modexp_shr_return]
  kexec []
  refine (run_iszero hP.mul.big hc' pl.le_le).trans ?_
  rw [v]
  enter hP.exp in modexpCode
  rw [b_modexp_iszero_return, b_modulus_zero_or_one]
  by_cases h0 : e / 2 = 0
  · simp only [if_pos h0]
    kexec [ne_eq, Nat.one_ne_zero, not_true, not_false_iff, if_true, m_pop10, rep]
    exact .refl _
  · simp only [if_neg h0]
    kexec [ne_eq, Nat.one_ne_zero, not_false_iff, if_true]
    exact .refl _

/-- A round up to there (`asm/bignum/modexp.asm:77-155`). -/
theorem run_round (hP : P.Powers) {w : World} {e m X Y : Nat} (hn : 0 < n) (pl : ExpPlaces n lb le lm lo s1 s2)
    (h : ExpAt n le lm lo s1 s2 w e m X Y) (hin : ∀ i, w.inp i < 2 ^ 128) :
    Returns P (roundAccepted n m e X Y w.inp)
      (exec P b_modexp_loop (expArgs n lb le lm lo s1 s2 ret s) w)
      (P.addr "modexp@5.after")
      fun s' w' => s' = expArgs n lb le lm lo s1 s2 ret s ∧ roundAccepted n m e X Y w.inp ∧
        ExpAt n le lm lo s1 s2 w' e m (inpX n (inpMid n e w.inp)) (nextY n e Y w.inp) ∧
        w'.inp = inpRest n (inpMid n e w.inp) ∧ ExpFrame n le lo s1 s2 w w' := by
  have hle := pl.le_le
  rw [b_modexp_loop]
  have ea : expArgs n lb le lm lo s1 s2 ret s = expArgs n lb le lm lo s1 s2 ret s := rfl
  conv at ea => lhs; rw [expArgs]
  rw [expArgs]
  kexec []
  rw [exec_load_general h.ctx (by omega)]
  kexec [m_mod_const, ne_eq]
  rw [show wmod (w.mem (base w + le)) 2 = w.mem (base w + le) % 2 from if_neg (by omega), h.holdsE.odd hn]
  by_cases h2 : e % 2 = 1
  · simp only [h2]
    refine Returns.andThen ((run_mul_part hP hn pl h hin).mono (fun hr => hr.1 h2) fun _ _ h => h) ?_
    rintro _ w1 ⟨rfl, hA, h1, i1, f1⟩
    renter hP.exp in modexpCode
    rw [b_modexp_3_after]
    refine (run_square_part hP hn pl h1 (fun i => by rw [i1]; exact hin _)).mono ?_ ?_
    · intro hr
      have := hr.2
      rw [inpMid, if_pos h2] at this
      rw [i1]; exact this
    · rintro s' w' ⟨rfl, hB, h3, i3, f3⟩
      rw [i1] at hB h3 i3
      refine ⟨rfl, ⟨fun _ => hA, ?_⟩, ?_, ?_, f1.trans f3⟩
      · rw [inpMid, if_pos h2]; exact hB
      · rw [inpMid, if_pos h2, nextY, if_pos h2]; exact h3
      · rw [inpMid, if_pos h2]; exact i3
  · simp only [show e % 2 = 0 by omega]
    rw [ea]
    renter hP.exp in modexpCode
    refine (run_square_part hP hn pl h hin).mono ?_ ?_
    · intro hr
      have := hr.2
      rw [inpMid, if_neg h2] at this
      exact this
    · rintro s' w' ⟨rfl, hB, h3, i3, f3⟩
      refine ⟨rfl, ⟨fun h => absurd h h2, ?_⟩, ?_, ?_, f3⟩
      · rw [inpMid, if_neg h2]; exact hB
      · rw [inpMid, if_neg h2, nextY, if_neg h2]; exact h3
      · rw [inpMid, if_neg h2]; exact i3

theorem inpMid_lt {e B : Nat} {inp : Nat → Nat} (h : ∀ i, inp i < B) (i : Nat) : inpMid n e inp i < B := by
  simp only [inpMid]; split
  · exact h _
  · exact h _

/-- The loop (`asm/bignum/modexp.asm:77-183`). -/
theorem run_exp_loop (hP : P.Powers) (hn : 0 < n) (pl : ExpPlaces n lb le lm lo s1 s2) {m : Nat} :
    ∀ (r e X Y : Nat) (w : World), Digits e r → ExpAt n le lm lo s1 s2 w e m X Y → (∀ i, w.inp i < 2 ^ 128) →
      Returns P (expAccepted n m r e X Y w.inp)
        (exec P b_modexp_loop (expArgs n lb le lm lo s1 s2 ret s) w) ret
        fun s' w' => s' = s ∧ expAccepted n m r e X Y w.inp ∧ Holds w' lo n (expResult n r e Y w.inp) ∧
          ExpFrame n le lo s1 s2 w w' := by
  intro r
  induction r with
  | zero => intro e X Y w hd; exact absurd hd.1 (by omega)
  | succ r ih =>
    intro e X Y w hd h hin
    refine Returns.andThen ((run_round (m := m) hP hn pl h hin).mono (fun hr => hr.1) fun _ _ h => h) ?_
    rintro _ w1 ⟨rfl, hA, h1, i1, f1⟩
    obtain ⟨w2, r2, h2, i2, f2⟩ := run_round_end (ret := ret) (s := s) hP pl h1
    refine .of r2 ?_
    have f := f1.trans f2
    by_cases h0 : e / 2 = 0
    · rw [if_pos h0]
      obtain rfl := hd.last h0
      refine .ret ⟨rfl, ⟨hA, trivial⟩, h2.holdsY, f⟩
    · rw [if_neg h0]
      renter hP.exp in modexpCode
      have ii : w2.inp = inpRest n (inpMid n e w.inp) := i2.trans i1
      refine (ih _ _ _ w2 (hd.half h0) h2 fun i => by rw [ii]; exact inpMid_lt hin _).mono ?_ ?_
      · intro hr; rw [ii]; exact hr.2
      · rintro s' w' ⟨rfl, hB, h3, f3⟩
        rw [ii] at hB h3
        exact ⟨rfl, ⟨hA, hB⟩, h3, f.trans f3⟩

/-! ### The whole of it -/

/-- What is in memory before: the numbers, and zeros where the result and the products come. -/
structure ExpOn (n lb le lm lo s1 s2 : Nat) (w : World) (b e m : Nat) : Prop where
  places : ExpPlaces n lb le lm lo s1 s2
  holdsB : Holds w lb n b
  holdsE : Holds w le n e
  holdsM : Holds w lm n m
  zeroO : Holds w lo n 0
  zero2 : Holds w s2 (8 * n) 0

/-- Whether the tests at the beginning decide the result, and what it is. -/
def expEarly (b e m : Nat) : Option Nat :=
  if m = 0 ∨ m = 1 then some 0 else if b = 0 ∧ e = 0 then some 1 else none

theorem Holds.zero_iff {w : World} {l : Nat} : Holds w l n 0 ↔ ∀ i < n, limbs w l i = 0 := by
  constructor
  · intro h i hi
    have := h.2 i hi; rw [Nat.zero_div, Nat.zero_mod] at this; exact this
  · intro h
    exact ⟨by positivity, fun i hi => by rw [Nat.zero_div, Nat.zero_mod]; exact h i hi⟩

theorem Holds.set_one {w w' : World} {l : Nat} (h : Holds w l n 0) (hn : 0 < n) (hw : w' = w.set (base w + l) 1) :
    Holds w' l n 1 := by
  have hz := Holds.zero_iff.1 h
  have hb : base w' = base w := base_congr (by rw [hw, set_ctx])
  refine ⟨Nat.one_lt_pow (by omega) (by decide), fun i hi => ?_⟩
  show limbs w' l i = _
  simp only [limbs, hb]
  rw [hw]
  match i, hi with
  | 0, _ => rw [Nat.add_zero, set_same, Nat.pow_zero]; rfl
  | i + 1, hi =>
    rw [set_ne (by omega), Nat.div_eq_of_lt (Nat.one_lt_pow (by omega) (by decide))]
    exact hz (i + 1) hi

/-- `asm/bignum/modexp.asm:10-189`. -/
theorem run_modexp (hP : P.Powers) {w : World} {b e m r : Nat} (hn : 0 < n) (hc : w.ctx < 2 ^ 32)
    (h : ExpOn n lb le lm lo s1 s2 w b e m) (hd : Digits e r) (hin : ∀ i, w.inp i < 2 ^ 128) :
    Returns P (expEarly b e m = none → expAccepted n m r e b 1 w.inp)
      (.goto (P.addr "modexp_bignum") (expArgs n lb le lm lo s1 s2 ret s) w) ret
      fun s' w' => s' = s ∧ (∀ x, expEarly b e m = some x → Holds w' lo n x) ∧
        (expEarly b e m = none → expAccepted n m r e b 1 w.inp ∧ Holds w' lo n (expResult n r e 1 w.inp)) ∧
        ExpFrame n le lo s1 s2 w w' := by
  have pl := h.places
  have hlo := pl.lo_le
  have vb := (Holds.iff.1 h.holdsB).2
  have ve := (Holds.iff.1 h.holdsE).2
  have vm := (Holds.iff.1 h.holdsM).2
  have ea : expArgs n lb le lm lo s1 s2 ret s = expArgs n lb le lm lo s1 s2 ret s := rfl
  conv at ea => lhs; rw [expArgs]
  renter hP.exp in modexpCode
  rw [b_modexp_bignum, expArgs]
  kexec []
  refine .of (run_iszero hP.mul.big hc pl.lm_le) ?_
  rw [vm]
  renter hP.exp in modexpCode
  rw [b_modulus_zero_return]
  by_cases hm0 : m = 0
  · have hE : expEarly b e m = some 0 := if_pos (.inl hm0)
    simp only [if_pos hm0]
    kexec [ne_eq, Nat.one_ne_zero, not_false_iff, if_true]
    renter hP.exp in modexpCode
    rw [b_modulus_zero_or_one]
    kexec [m_pop10, rep]
    refine .ret ⟨rfl, fun x hx => ?_, fun hx => ?_, .refl _⟩
    · rw [hE] at hx; cases hx; exact h.zeroO
    · rw [hE] at hx; cases hx
  simp only [if_neg hm0]
  kexec [ne_eq, not_true, if_false]
  refine .of (run_isone hP.mul.big hc pl.lm_le) ?_
  rw [vm]
  renter hP.exp in modexpCode
  rw [b_modulus_one_return]
  by_cases hm1 : m = 1
  · have hE : expEarly b e m = some 0 := if_pos (.inr hm1)
    simp only [if_pos hm1]
    kexec [ne_eq, Nat.one_ne_zero, not_false_iff, if_true]
    renter hP.exp in modexpCode
    rw [b_modulus_zero_or_one]
    kexec [m_pop10, rep]
    refine .ret ⟨rfl, fun x hx => ?_, fun hx => ?_, .refl _⟩
    · rw [hE] at hx; cases hx; exact h.zeroO
    · rw [hE] at hx; cases hx
  simp only [if_neg hm1]
  kexec [ne_eq, not_true, if_false]
  refine .of (run_iszero hP.mul.big hc pl.lb_le) ?_
  rw [vb]
  renter hP.exp in modexpCode
  rw [b_b_zero_return]
  kexec []
  refine .of (run_iszero hP.mul.big hc pl.le_le) ?_
  rw [ve]
  renter hP.exp in modexpCode
  rw [b_e_zero_return]
  by_cases hbe : b = 0 ∧ e = 0
  · have hE : expEarly b e m = some 1 := by simp only [expEarly]; rw [if_neg (by omega), if_pos hbe]
    simp only [if_pos hbe.1, if_pos hbe.2]
    kexec [ne_eq, wmul, Nat.mul_one, Nat.one_mod, Nat.one_ne_zero, not_false_iff, if_true]
    renter hP.exp in modexpCode
    rw [b_b_and_e_zero]
    kexec []
    rw [exec_store_general hc (by omega)]
    obtain ⟨w1, hw1⟩ : ∃ w1, w1 = w.set (base w + lo) 1 := ⟨_, rfl⟩
    have h1 := h.zeroO.set_one hn hw1
    have hf : ExpFrame n le lo s1 s2 w w1 := ⟨by rw [hw1, set_ctx], fun a _ a2 _ _ => by
      rw [hw1, set_ne]; simp only [Outside] at a2; omega⟩
    rw [← hw1]
    kexec [m_pop10, rep]
    refine .ret ⟨rfl, fun x hx => ?_, fun hx => ?_, hf⟩
    · rw [hE] at hx; cases hx; exact h1
    · rw [hE] at hx; cases hx
  have hE : expEarly b e m = none := by simp only [expEarly]; rw [if_neg (by omega), if_neg hbe]
  have hz : wmul (if e = 0 then 1 else 0) (if b = 0 then 1 else 0) = 0 := by
    by_cases h0 : e = 0
    · rw [if_pos h0, if_neg (fun hb => hbe ⟨hb, h0⟩)]; rfl
    · rw [if_neg h0]; simp only [wmul, Nat.zero_mul, Nat.zero_mod]
  kexec [ne_eq]
  rw [hz]
  kexec [ne_eq, not_true, if_false]
  rw [exec_general, general_base hc]
  kexec []
  have hs1 := pl.s1_le
  have hlb := pl.lb_le
  have hb1 := pl.b1
  rw [wadd_base hc (by omega), wadd_base' hc (by omega)]
  refine .of (run_memcpy hP.copies.has n _ _ w (span_general hc (by omega) hn) (span_general hc (by omega) hn)
    (by simp only [Apart] at hb1; omega)) ?_
  obtain ⟨w1, hw1⟩ : ∃ w1, w1 = w.copy (base w + s1) (base w + lb) n := ⟨_, rfl⟩
  have c1 : w1.ctx = w.ctx := by rw [hw1, copied_ctx]
  have i1 : w1.inp = w.inp := by rw [hw1]; exact copied_inp
  have k1 : Leaves w w1 s1 n := ⟨c1, fun a ha => by rw [hw1]; exact (copied_copy w _ _ n).2.2.2 a (by omega)⟩
  have t1 : ∀ i < n, limbs w1 s1 i = limbs w lb i := fun i hi => by
    simp only [limbs, k1.base_eq]
    rw [hw1, ← Nat.add_assoc, ← Nat.add_assoc]
    exact (copied_copy w _ _ n).1 i hi
  rw [← hw1]
  clear hw1
  have hc1 : w1.ctx < 2 ^ 32 := by rw [c1]; exact hc
  renter hP.exp in modexpCode
  rw [b_modexp_1_after]
  generalize ht : b_modexp_loop = t
  kexec []
  rw [exec_store_general hc1 (by omega), ← ht, ea]
  obtain ⟨w2, hw2⟩ : ∃ w2, w2 = w1.set (base w1 + lo) 1 := ⟨_, rfl⟩
  have i2 : w2.inp = w.inp := by rw [hw2, set_inp, i1]
  have o1 : Holds w1 lo n 0 := h.zeroO.congr fun i hi => k1.limbs_eq pl.o1.symm hi
  have o2 := o1.set_one hn hw2
  have k2 : Leaves w1 w2 lo n := by rw [hw2]; exact leaves_set' hn
  rw [← hw2]
  clear hw2
  have hA : ExpAt n le lm lo s1 s2 w2 e m b 1 := by
    refine ⟨by rw [k2.1]; exact hc1, ?_, ?_, ?_, o2, ?_⟩
    · exact h.holdsE.congr fun i hi => (k2.limbs_eq pl.eo.symm hi).trans (k1.limbs_eq pl.e1.symm hi)
    · exact h.holdsM.congr fun i hi => (k2.limbs_eq pl.mo.symm hi).trans (k1.limbs_eq pl.m1.symm hi)
    · obtain ⟨sb, vb⟩ := Holds.iff.1 h.holdsB
      refine Holds.iff.2 ⟨fun i hi => ?_, ?_⟩
      · rw [k2.limbs_eq pl.o1 hi, t1 i hi]; exact sb i hi
      · rw [k2.num_eq pl.o1, num_congr t1, vb]
    · intro i hi
      rw [k2.limbs_eq pl.o2 hi, k1.limbs_eq pl.i2 hi]
      exact Holds.zero_iff.1 h.zero2 i hi
  have hf : ExpFrame n le lo s1 s2 w w2 := ⟨k2.1.trans c1, fun a _ a2 a3 _ => by
    rw [k2.2 a (by rw [k1.base_eq]; exact a2), k1.2 a a3]⟩
  refine (run_exp_loop hP hn pl r e b 1 w2 hd hA fun i => by rw [i2]; exact hin i).mono ?_ ?_
  · intro hr; rw [i2]; exact hr hE
  · rintro s' w' ⟨rfl, h1, h2, h3⟩
    rw [i2] at h1 h2
    refine ⟨rfl, fun x hx => ?_, fun _ => ⟨h1, h2⟩, hf.trans h3⟩
    rw [hE] at hx; cases hx

end Verif.Kasm
