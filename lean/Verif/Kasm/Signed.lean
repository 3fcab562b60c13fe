import Verif.Kasm.Rules
import Verif.Kasm.Code.Signed

/-! C100: the EVM's signed instructions, which the kernel implements in assembly. -/

namespace Verif.Kasm

/-! ### Specification: two's complement -/

/-- The integer a word stands for. -/
def toInt (x : Nat) : Int := if x < 2 ^ 255 then (x : Int) else (x : Int) - 2 ^ 256

/-- The word that stands for an integer, modulo 2^256. -/
def ofInt (i : Int) : Nat := (i % 2 ^ 256).toNat

/-- SDIV: division rounding towards zero; by zero it is zero. -/
def sdivSpec (x y : Nat) : Nat := if y = 0 then 0 else ofInt ((toInt x).tdiv (toInt y))

/-- SMOD: the remainder with the sign of the dividend; by zero it is zero. -/
def smodSpec (x y : Nat) : Nat := if y = 0 then 0 else ofInt ((toInt x).tmod (toInt y))

/-- SAR: division by a power of two rounding down. -/
def sarSpec (s x : Nat) : Nat := ofInt (toInt x / 2 ^ s)

/-- SIGNEXTEND: the low `b + 1` bytes as a signed number; everything when there are 32 or more. -/
def signextendSpec (b x : Nat) : Nat :=
  if b < 31 then ofInt (Int.bmod x (2 ^ (8 * (b + 1)))) else x

/-- SLT. -/
def sltSpec (x y : Nat) : Nat := if toInt x < toInt y then 1 else 0

/-- SGT. -/
def sgtSpec (x y : Nat) : Nat := if toInt x > toInt y then 1 else 0

/-! ### The routines -/

/-- The absolute value of a word. -/
private def mag (x : Nat) : Nat := if x < 2 ^ 255 then x else 2 ^ 256 - x

private theorem toInt_mag {x : Nat} (hx : x < 2 ^ 256) :
    toInt x = if x < 2 ^ 255 then (mag x : Int) else -(mag x : Int) := by
  unfold toInt mag; split <;> omega

private theorem wsub_zero {x : Nat} (hx : x < 2 ^ 256) (hn : ¬ x < 2 ^ 255) : wsub 0 x = mag x := by
  simp only [wsub, mag, if_neg hn]; omega

private theorem ofInt_nat {q : Nat} (h : q < 2 ^ 256) : ofInt (q : Int) = q := by
  unfold ofInt; omega

private theorem ofInt_neg {q : Nat} (h : q < 2 ^ 256) : ofInt (-(q : Int)) = wsub 0 q := by
  simp only [ofInt, wsub]; omega

private theorem mag_lt {x : Nat} : mag x ≤ 2 ^ 255 := by unfold mag; split <;> omega

private theorem mag_pos {x : Nat} (hx : x < 2 ^ 256) (h : x ≠ 0) : mag x ≠ 0 := by
  unfold mag; split <;> omega

variable {P : Prog} {S : List Nat} {w : World} {ret x y : Nat}

theorem run_sdiv (hP : P.Has signedCode) (hx : x < 2 ^ 256) (hy : y < 2 ^ 256) :
    Reaches P (.goto (P.addr "_sys_sdiv") (x :: y :: ret :: S) w)
      (.goto ret (sdivSpec x y :: S) w) := by
  have hq : ∀ q, q = mag x / mag y → q < 2 ^ 256 := by
    rintro q rfl; have := Nat.div_le_self (mag x) (mag y); have := @mag_lt x; omega
  have key : sdivSpec x y
      = if (x < 2 ^ 255 ↔ y < 2 ^ 255) then wdiv (mag x) (mag y)
        else wsub 0 (wdiv (mag x) (mag y)) := by
    unfold sdivSpec
    by_cases h0 : y = 0
    · subst h0
      have : wdiv (mag x) (mag 0) = 0 := by simp [wdiv, mag]
      rw [this]; simp [wsub]
    · have hm := mag_pos hy h0
      rw [if_neg h0, toInt_mag hx, toInt_mag hy]
      have h3 : ((mag x : Int).tdiv (mag y : Int)) = ((mag x / mag y : Nat) : Int) := rfl
      simp only [wdiv, if_neg hm]
      have := hq _ rfl
      by_cases h1 : x < 2 ^ 255 <;> by_cases h2 : y < 2 ^ 255 <;>
        simp only [h1, h2, if_true, if_false, Int.neg_tdiv, Int.tdiv_neg, Int.neg_neg, h3,
          iff_true, iff_false, not_true] <;>
        first | exact ofInt_nat this | exact ofInt_neg this
  have hlast : ∀ q, Reaches P (.goto (P.addr "sys_sdiv_same_sign") (q :: ret :: S) w)
      (.goto ret (q :: S) w) := by
    intro q
    enter hP in signedCode
    kexec [b_sys_sdiv_same_sign]
    exact .refl _
  have hmid : ∀ a b, Reaches P
      (exec P b_sys_sdiv_nonneg_denom (b :: mag y :: mag x :: a :: ret :: S) w)
        (.goto ret ((if a = b then wdiv (mag x) (mag y)
          else wsub 0 (wdiv (mag x) (mag y))) :: S) w) := by
    intro a b
    kexec [b_sys_sdiv_nonneg_denom, b_sys_sdiv_same_sign]
    by_cases h : a = b
    · simp only [h, ne_eq, not_true, if_false, if_true]; exact hlast _
    · simp only [h, ne_eq, not_false_iff, if_true, if_false]; exact .refl _
  have hden : ∀ a, Reaches P (exec P b_sys_sdiv_nonneg_num (a :: mag x :: y :: ret :: S) w)
        (.goto ret ((if a = wgt (2 ^ 255) y then wdiv (mag x) (mag y)
          else wsub 0 (wdiv (mag x) (mag y))) :: S) w) := by
    intro a
    kexec [b_sys_sdiv_nonneg_num]
    by_cases h : y < 2 ^ 255
    · rw [if_neg (by omega)]
      enter hP in signedCode
      have := hmid a (wgt (2 ^ 255) y)
      have e : mag y = y := if_pos h
      rw [e] at this ⊢; exact this
    · rw [if_pos (by omega), wsub_zero hy h]
      exact hmid a (wgt (2 ^ 255) y)
  enter hP in signedCode
  kexec [b__sys_sdiv]
  have hfin : (if wgt (2 ^ 255) x = wgt (2 ^ 255) y then wdiv (mag x) (mag y)
      else wsub 0 (wdiv (mag x) (mag y))) = sdivSpec x y := by
    rw [key]
    have : (wgt (2 ^ 255) x = wgt (2 ^ 255) y) ↔ (x < 2 ^ 255 ↔ y < 2 ^ 255) := by
      unfold wgt; by_cases h1 : x < 2 ^ 255 <;> by_cases h2 : y < 2 ^ 255 <;> simp [h1, h2]
    simp only [this]
  have h := hden (wgt (2 ^ 255) x)
  rw [hfin] at h
  by_cases h1 : x < 2 ^ 255
  · rw [if_neg (by omega)]
    enter hP in signedCode
    rwa [show mag x = x from if_pos h1] at h
  · rw [if_pos (by omega), wsub_zero hx h1]
    exact h

theorem run_smod (hP : P.Has signedCode) (hx : x < 2 ^ 256) (hy : y < 2 ^ 256) :
    Reaches P (.goto (P.addr "_sys_smod") (x :: y :: ret :: S) w)
      (.goto ret (smodSpec x y :: S) w) := by
  have key : smodSpec x y = if x < 2 ^ 255 then wmod (mag x) (mag y)
      else wsub 0 (wmod (mag x) (mag y)) := by
    unfold smodSpec
    by_cases h0 : y = 0
    · subst h0
      have : wmod (mag x) (mag 0) = 0 := by simp [wmod, mag]
      rw [this]; simp [wsub]
    · have hm := mag_pos hy h0
      rw [if_neg h0, toInt_mag hx, toInt_mag hy]
      have h3 : ((mag x : Int).tmod (mag y : Int)) = ((mag x % mag y : Nat) : Int) := rfl
      have : mag x % mag y < 2 ^ 256 := by
        have := Nat.mod_le (mag x) (mag y); have := @mag_lt x; omega
      simp only [wmod, if_neg hm]
      by_cases h1 : x < 2 ^ 255 <;> by_cases h2 : y < 2 ^ 255 <;>
        simp only [h1, h2, if_true, if_false, Int.neg_tmod, Int.tmod_neg, h3] <;>
        first | exact ofInt_nat this | exact ofInt_neg this
  have hpos : Reaches P (exec P b_sys_smod_pos_mod (2 ^ 255 :: x :: mag y :: ret :: S) w)
      (.goto ret (smodSpec x y :: S) w) := by
    rw [key]
    kexec [b_sys_smod_pos_mod]
    by_cases h1 : x < 2 ^ 255
    · rw [if_neg (by omega)]
      enter hP in signedCode
      kexec [b_sys_smod_pos_x, if_pos h1]
      rw [show mag x = x from if_pos h1]; exact .refl _
    · rw [if_pos (by omega), wsub_zero hx h1, if_neg h1]; exact .refl _
  enter hP in signedCode
  kexec [b__sys_smod]
  by_cases h1 : y < 2 ^ 255
  · rw [if_neg (by omega)]
    enter hP in signedCode
    rwa [show mag y = y from if_pos h1] at hpos
  · rw [if_pos (by omega), wsub_zero hy h1]; exact hpos

private theorem exec_min {c : List I} {a b : Nat} (ha : a < 2 ^ 256) (hb : b < 2 ^ 256) :
    exec P (m_min ++ c) (a :: b :: S) w = exec P c (min a b :: S) w := by
  kexec [m_min, m_select_bool]
  congr 2
  simp only [wgt, wiszero, wmul, wadd]
  split <;> simp <;> omega

private theorem sar_big {t : Int} {k : Nat} (h1 : -2 ^ 255 ≤ t) (h2 : t < 2 ^ 255) (hk : 255 ≤ k) :
    t / 2 ^ k = if t < 0 then -1 else 0 := by
  have hp : (2 : Int) ^ 255 ≤ 2 ^ k := by
    have : (2 : Nat) ^ 255 ≤ 2 ^ k := Nat.pow_le_pow_right (by omega) hk
    exact_mod_cast this
  generalize (2 : Int) ^ k = q at hp
  split
  · refine (Int.ediv_eq_iff_of_pos (by omega)).2 ⟨by omega, by omega⟩
  · exact Int.ediv_eq_zero_of_lt (by omega) (by omega)

private theorem sar_math {m : Nat} (hm : m ≤ 255) (hx : x < 2 ^ 256) :
    wsub (wshr m (wadd x (2 ^ 255))) (wshr m (2 ^ 255)) = ofInt (toInt x / 2 ^ m) := by
  have hu : wadd x (2 ^ 255) = (toInt x + 2 ^ 255).toNat := by
    unfold wadd toInt; split <;> omega
  have ht : -2 ^ 255 ≤ toInt x ∧ toInt x < 2 ^ 255 := by unfold toInt; split <;> omega
  rw [hu]
  generalize toInt x = t at ht
  obtain ⟨u, hu'⟩ : ∃ u : Nat, t + 2 ^ 255 = u := ⟨(t + 2 ^ 255).toNat, by omega⟩
  have hb : (2 : Nat) ^ 255 / 2 ^ m = 2 ^ (255 - m) := Nat.pow_div hm (by omega)
  have hb2 : (2 : Int) ^ 255 = 2 ^ (255 - m) * 2 ^ m := by
    have : (2 : Nat) ^ 255 = 2 ^ (255 - m) * 2 ^ m := by
      rw [← Nat.pow_add, show 255 - m + m = 255 by omega]
    exact_mod_cast this
  have hpos : (2 : Int) ^ m ≠ 0 := by
    have : (2 : Nat) ^ m ≠ 0 := by have := Nat.two_pow_pos m; omega
    exact_mod_cast this
  have hd : t / 2 ^ m = ((u / 2 ^ m : Nat) : Int) - ((2 ^ (255 - m) : Nat) : Int) := by
    have : t = (u : Int) - 2 ^ (255 - m) * 2 ^ m := by rw [← hb2]; omega
    rw [this, Int.sub_mul_ediv_right _ _ hpos]
    simp only [Int.natCast_ediv, Int.natCast_pow]; rfl
  have hu2 : (t + 2 ^ 255).toNat = u := by omega
  rw [hd, hu2]
  simp only [wshr, if_neg (show ¬ 255 < m by omega), hb, wsub, ofInt]
  have h1 : u / 2 ^ m < 2 ^ 256 := Nat.lt_of_le_of_lt (Nat.div_le_self _ _) (by omega)
  have h2 : 2 ^ (255 - m) ≤ 2 ^ 255 := Nat.pow_le_pow_right (by omega) (by omega)
  generalize u / 2 ^ m = A at h1
  generalize 2 ^ (255 - m) = B at h2
  omega

private theorem exec_sar {s : Nat} (hs : s < 2 ^ 256) (hx : x < 2 ^ 256) :
    exec P b__sys_sar (s :: x :: ret :: S) w = .goto ret (sarSpec s x :: S) w := by
  simp only [b__sys_sar, exec_push', val_lit]
  rw [exec_min (by omega) hs]
  kexec []
  have h := @sar_math x (min 255 s) (by omega) hx
  have e : sarSpec s x = ofInt (toInt x / 2 ^ min 255 s) := by
    unfold sarSpec
    by_cases h : s ≤ 255
    · rw [show min 255 s = s by omega]
    · have ht : -2 ^ 255 ≤ toInt x ∧ toInt x < 2 ^ 255 := by unfold toInt; split <;> omega
      rw [sar_big ht.1 ht.2 (by omega), sar_big ht.1 ht.2 (by omega)]
  rw [e, ← h]

theorem run_sar (hP : P.Has signedCode) {s : Nat} (hs : s < 2 ^ 256) (hx : x < 2 ^ 256) :
    Reaches P (.goto (P.addr "_sys_sar") (s :: x :: ret :: S) w)
      (.goto ret (sarSpec s x :: S) w) := by
  enter hP in signedCode
  rw [exec_sar hs hx]
  exact .refl _

private theorem signextend_math {b : Nat} (hb : b < 2 ^ 256) (hx : x < 2 ^ 256) :
    sarSpec (256 - 8 * (min 31 b + 1)) (wshl (256 - 8 * (min 31 b + 1)) x)
      = signextendSpec b x := by
  have hm : ∀ n, n ≤ 31 → sarSpec (256 - 8 * (n + 1)) (wshl (256 - 8 * (n + 1)) x)
      = ofInt (Int.bmod x (2 ^ (8 * (n + 1)))) := by
    intro n hn
    unfold sarSpec
    congr 1
    obtain ⟨k, hk, hk2⟩ : ∃ k, 256 - 8 * (n + 1) = k ∧ k + 8 * (n + 1) = 256 := ⟨_, rfl, by omega⟩
    rw [hk]
    have hk' : ¬ 255 < k := by omega
    simp only [wshl, if_neg hk']
    obtain ⟨j, hj⟩ : ∃ j, 8 * (n + 1) = j + 1 := ⟨8 * n + 7, by omega⟩
    rw [hj] at hk2 ⊢
    have hsplit : (2 : Nat) ^ 256 = 2 ^ (j + 1) * 2 ^ k := by
      rw [← Nat.pow_add]; congr 1; omega
    have hsplit2 : (2 : Nat) ^ 255 = 2 ^ j * 2 ^ k := by
      rw [← Nat.pow_add]; congr 1; omega
    rw [hsplit, Nat.mul_mod_mul_right]
    have hkp := Nat.two_pow_pos k
    have hjp := Nat.two_pow_pos j
    have hj2 : (2 : Nat) ^ (j + 1) = 2 * 2 ^ j := by rw [Nat.pow_succ]; omega
    have hr := Nat.mod_lt x (show 0 < 2 ^ (j + 1) by omega)
    have hbm : Int.bmod x (2 ^ (j + 1)) = if x % 2 ^ (j + 1) < 2 ^ j
        then ((x % 2 ^ (j + 1) : Nat) : Int) else ((x % 2 ^ (j + 1) : Nat) : Int) - 2 ^ (j + 1) := by
      unfold Int.bmod
      simp only [hj2]
      have e1 : (((2 * 2 ^ j : Nat) : Int) + 1) / 2 = (2 ^ j : Nat) := by omega
      rw [e1, ← Int.natCast_emod]
      have e2 : (2 : Int) ^ (j + 1) = ((2 * 2 ^ j : Nat) : Int) := by
        rw [← hj2]; simp
      rw [e2]
      simp only [Int.ofNat_lt]
    rw [hbm]
    generalize x % 2 ^ (j + 1) = r at hr
    have hkpi : (2 : Int) ^ k ≠ 0 := by
      have : (2 : Nat) ^ k ≠ 0 := by omega
      exact_mod_cast this
    have hc : r * 2 ^ k < 2 ^ 255 ↔ r < 2 ^ j := by
      rw [hsplit2]; exact Nat.mul_lt_mul_right hkp
    unfold toInt
    simp only [hc]
    split
    · rw [Int.natCast_mul, Int.natCast_pow]; exact Int.mul_ediv_cancel _ hkpi
    · have : ((r * 2 ^ k : Nat) : Int) - 2 ^ 256 = ((r : Int) - 2 ^ (j + 1)) * 2 ^ k := by
        have h256 : (2 : Int) ^ 256 = 2 ^ (j + 1) * 2 ^ k := by exact_mod_cast hsplit
        rw [h256, Int.sub_mul, Int.natCast_mul, Int.natCast_pow]; rfl
      rw [this]; exact Int.mul_ediv_cancel _ hkpi
  unfold signextendSpec
  by_cases h : b < 31
  · rw [if_pos h, show min 31 b = b by omega]; exact hm b (by omega)
  · rw [if_neg h, show min 31 b = 31 by omega]
    simp only [sarSpec, wshl]
    simp only [ofInt, toInt]
    split <;> omega

theorem run_signextend (hP : P.Has signedCode) {b : Nat} (hb : b < 2 ^ 256) (hx : x < 2 ^ 256) :
    Reaches P (.goto (P.addr "_sys_signextend") (b :: x :: ret :: S) w)
      (.goto ret (signextendSpec b x :: S) w) := by
  enter hP in signedCode
  simp only [b__sys_signextend, exec_push', val_lit]
  rw [exec_min (by omega) hb]
  kexec [m_increment, m_add_const, m_mul_const]
  have e : wsub 256 (wmul 8 (wadd 1 (min 31 b))) = 256 - 8 * (min 31 b + 1) := by
    simp only [wsub, wmul, wadd]; omega
  rw [e]
  have hw : wshl (256 - 8 * (min 31 b + 1)) x < 2 ^ 256 := by
    unfold wshl; split
    · omega
    · exact Nat.mod_lt _ (by omega)
  rw [exec_sar (by omega) hw, signextend_math hb hx]
  exact .refl _

theorem run_slt (hP : P.Has signedCode) (hx : x < 2 ^ 256) (hy : y < 2 ^ 256) :
    Reaches P (.goto (P.addr "_sys_slt") (x :: y :: ret :: S) w)
      (.goto ret (sltSpec x y :: S) w) := by
  enter hP in signedCode
  kexec [b__sys_slt, m_add_const]
  have e : wgt (wadd (2 ^ 255) y) (wadd (2 ^ 255) x) = sltSpec x y := by
    unfold wgt wadd sltSpec toInt
    split <;> split <;> split <;> split <;> first | rfl | omega
  rw [← e]; exact .refl _

theorem run_sgt (hP : P.Has signedCode) (hx : x < 2 ^ 256) (hy : y < 2 ^ 256) :
    Reaches P (.goto (P.addr "_sys_sgt") (x :: y :: ret :: S) w)
      (.goto ret (sgtSpec x y :: S) w) := by
  enter hP in signedCode
  kexec [b__sys_sgt, b__sys_slt, m_add_const]
  have e : wgt (wadd (2 ^ 255) x) (wadd (2 ^ 255) y) = sgtSpec x y := by
    unfold wgt wadd sgtSpec toInt
    split <;> split <;> split <;> split <;> first | rfl | omega
  rw [← e]; exact .refl _

/-! ### The system calls -/

/-- What a system call with two operands, a constant gas charge and a routine does. -/
private theorem run_sys (hP : P.Has signedCode) {sys sub : String} {g : Nat} {c : List I} {r k : Nat}
    (hg : g ≤ 5) (hk : k < 2 ^ 255) (hc : w.ctx < 2 ^ 32)
    (hm : (sys, c) ∈ signedCode)
    (hcode : c = m_charge_gas_const (.lit g) ++
      STK 3 [.t (.lab sub), .e 1, .e 2, .t (.lab "_syscall_return"), .e 0] :: JUMP :: [])
    (hsub : ∀ S', Reaches P (.goto (P.addr sub) (x :: y :: P.addr "_syscall_return" :: S') w)
      (.goto (P.addr "_syscall_return") (r :: S') w)) :
    Reaches P (.goto (P.addr sys) (k :: x :: y :: S) w)
      (if k / 2 ^ 192 + g ≤ w.gasLimit then .exit (k + g * 2 ^ 192) (r :: S) w
       else .goto (P.addr "fault_exception") ((k + g * 2 ^ 192) :: x :: y :: S) w) := by
  refine Reaches.enter hP hm ?_
  simp only [hcode, m_charge_gas_const, List.cons_append, exec_push', val_lit, List.append_assoc]
  rw [exec_charge_gas hc (by omega)]
  kexec []
  split
  · refine (hsub _).trans ?_
    enter hP in signedCode
    kexec [b__syscall_return]
    exact .refl _
  · exact .refl _

/-- The signed system calls, by label, with their gas and meaning.  The operands are those on
the stack of the caller, the first on top. -/
def signedSyscalls : List (String × Nat × (Nat → Nat → Nat)) :=
  [("sys_sdiv", 5, sdivSpec), ("sys_smod", 5, smodSpec), ("sys_signextend", 5, signextendSpec),
   ("sys_sar", 3, sarSpec), ("sys_slt", 3, sltSpec), ("sys_sgt", 3, sgtSpec)]

/-- C100.  In every kernel that contains this code: a system call for SDIV, SMOD, SIGNEXTEND,
SAR, SLT or SGT charges the instruction's gas and, if the limit of the context allows it,
returns to the caller with the two operands replaced by the result that two's complement
arithmetic defines; otherwise it faults with the operands still on the stack.  Memory, context
and the rest of the stack are untouched. -/
theorem C100_signed_arithmetic (hP : P.Has signedCode) {sys : String} {g : Nat}
    {f : Nat → Nat → Nat} (hs : (sys, g, f) ∈ signedSyscalls) {k : Nat}
    (hk : k < 2 ^ 255) (hc : w.ctx < 2 ^ 32) (hx : x < 2 ^ 256) (hy : y < 2 ^ 256) :
    Reaches P (.goto (P.addr sys) (k :: x :: y :: S) w)
      (if k / 2 ^ 192 + g ≤ w.gasLimit then .exit (k + g * 2 ^ 192) (f x y :: S) w
       else .goto (P.addr "fault_exception") ((k + g * 2 ^ 192) :: x :: y :: S) w) := by
  simp only [signedSyscalls, List.mem_cons, Prod.mk.injEq, List.not_mem_nil, or_false] at hs
  rcases hs with ⟨rfl, rfl, rfl⟩ | ⟨rfl, rfl, rfl⟩ | ⟨rfl, rfl, rfl⟩ | ⟨rfl, rfl, rfl⟩ |
    ⟨rfl, rfl, rfl⟩ | ⟨rfl, rfl, rfl⟩
  · exact run_sys hP (sub := "_sys_sdiv") (by omega) hk hc
      (by simp [signedCode]; rfl) rfl (fun _ => run_sdiv hP hx hy)
  · exact run_sys hP (sub := "_sys_smod") (by omega) hk hc
      (by simp [signedCode]; rfl) rfl (fun _ => run_smod hP hx hy)
  · exact run_sys hP (sub := "_sys_signextend") (by omega) hk hc
      (by simp [signedCode]; rfl) rfl (fun _ => run_signextend hP hx hy)
  · exact run_sys hP (sub := "_sys_sar") (by omega) hk hc
      (by simp [signedCode]; rfl) rfl (fun _ => run_sar hP hx hy)
  · exact run_sys hP (sub := "_sys_slt") (by omega) hk hc
      (by simp [signedCode]; rfl) rfl (fun _ => run_slt hP hx hy)
  · exact run_sys hP (sub := "_sys_sgt") (by omega) hk hc
      (by simp [signedCode]; rfl) rfl (fun _ => run_sgt hP hx hy)

/-! ### The hypotheses can be met, and the specification says what it should -/

/-- A kernel that contains the code. -/
example : (Prog.of signedCode (fun _ => 0)).Has signedCode :=
  Prog.of_has _ _ (by decide +kernel) (by decide +kernel)

/-- -7 / 2 = -3 and the remainder is -1; the smallest number divided by -1 wraps round. -/
example : sdivSpec (2 ^ 256 - 7) 2 = 2 ^ 256 - 3 ∧ smodSpec (2 ^ 256 - 7) 2 = 2 ^ 256 - 1 ∧
    sdivSpec (2 ^ 255) (2 ^ 256 - 1) = 2 ^ 255 ∧ sdivSpec 5 0 = 0 ∧ smodSpec 5 0 = 0 := by
  decide +kernel

/-- Byte 0x80 extends to -128, 0x17f to 0x7f; -8 >> 2 = -2 and -1 stays for large shifts. -/
example : signextendSpec 0 0x80 = 2 ^ 256 - 128 ∧ signextendSpec 0 0x17f = 0x7f ∧
    signextendSpec 31 5 = 5 ∧ sarSpec 2 (2 ^ 256 - 8) = 2 ^ 256 - 2 ∧
    sarSpec 300 (2 ^ 256 - 8) = 2 ^ 256 - 1 ∧ sltSpec (2 ^ 256 - 1) 0 = 1 ∧ sgtSpec 1 2 = 0 := by
  decide +kernel

/-- A system call within the gas limit, and one beyond it. -/
example (w : World) (hw : w.ctx = 1) (hg : w.gasLimit = 100) :
    Reaches (Prog.of signedCode (fun _ => 0))
      (.goto ((Prog.of signedCode (fun _ => 0)).addr "sys_sdiv")
        [7 + 90 * 2 ^ 192, 2 ^ 256 - 7, 2, 11] w)
      (.exit (7 + 95 * 2 ^ 192) [2 ^ 256 - 3, 11] w) := by
  have h := @C100_signed_arithmetic (Prog.of signedCode (fun _ => 0)) [11] w (2 ^ 256 - 7) 2
    (Prog.of_has _ _ (by decide +kernel) (by decide +kernel)) "sys_sdiv" 5 sdivSpec
    (by simp [signedSyscalls]) (7 + 90 * 2 ^ 192) (by omega) (by omega) (by omega) (by omega)
  rw [if_pos (by omega), show sdivSpec (2 ^ 256 - 7) 2 = 2 ^ 256 - 3 by decide +kernel] at h
  exact h

end Verif.Kasm
