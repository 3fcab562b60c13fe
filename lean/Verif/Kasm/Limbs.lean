import Verif.Kasm.Rules
import Mathlib.Tactic.Ring
import Mathlib.Tactic.Linarith

/-! Integers in the kernel's memory: little-endian sequences of 128-bit limbs in the general segment
of the current context (`asm/bignum/*.asm`, "Arithmetic on little-endian integers represented with
128-bit limbs"). -/

namespace Verif.Kasm

/-- The value of the first `n` of the limbs `f 0`, `f 1`, …, least significant first. -/
def num (f : Nat → Nat) : Nat → Nat
  | 0 => 0
  | n + 1 => f 0 + 2 ^ 128 * num (fun i => f (i + 1)) n

/-- Each of the first `n` limbs is below `2^128`. -/
def Small (f : Nat → Nat) (n : Nat) : Prop := ∀ i < n, f i < 2 ^ 128

theorem num_congr {f g : Nat → Nat} {n : Nat} (h : ∀ i < n, f i = g i) : num f n = num g n := by
  induction n generalizing f g with
  | zero => rfl
  | succ n ih =>
    simp only [num]
    rw [h 0 (by omega), ih fun i hi => h (i + 1) (by omega)]

theorem num_snoc (f : Nat → Nat) (n : Nat) : num f (n + 1) = num f n + f n * (2 ^ 128) ^ n := by
  induction n generalizing f with
  | zero => simp [num]
  | succ n ih =>
    rw [num, ih, num]; ring

theorem num_append (f : Nat → Nat) (n k : Nat) :
    num f (n + k) = num f n + (2 ^ 128) ^ n * num (fun i => f (n + i)) k := by
  induction n generalizing f with
  | zero => simp [num]
  | succ n ih =>
    rw [show n + 1 + k = n + k + 1 by omega, num, ih, num]
    rw [num_congr (f := fun i => f (n + i + 1)) (g := fun i => f (n + 1 + i)) fun i _ => by
      simp only [show n + i + 1 = n + 1 + i by omega]]
    ring

theorem Small.tail {f : Nat → Nat} {n : Nat} (h : Small f (n + 1)) : Small (fun i => f (i + 1)) n :=
  fun i hi => h (i + 1) (by omega)

theorem Small.le {f : Nat → Nat} {n k : Nat} (h : Small f n) (hk : k ≤ n) : Small f k :=
  fun i hi => h i (by omega)

theorem num_lt {f : Nat → Nat} {n : Nat} (h : Small f n) : num f n < (2 ^ 128) ^ n := by
  induction n generalizing f with
  | zero => simp [num]
  | succ n ih =>
    have h1 := ih h.tail
    have h0 := h 0 (by omega)
    rw [num, pow_succ (2 ^ 128) n]
    generalize (2 ^ 128) ^ n = p at *
    generalize num (fun i => f (i + 1)) n = x at *
    generalize hb : 2 ^ 128 = B at *
    have : B * (x + 1) ≤ B * p := Nat.mul_le_mul_left _ h1
    nlinarith

/-- A number determines its limbs. -/
theorem num_inj {f g : Nat → Nat} {n : Nat} (hf : Small f n) (hg : Small g n)
    (h : num f n = num g n) : ∀ i < n, f i = g i := by
  induction n generalizing f g with
  | zero => intro i hi; omega
  | succ n ih =>
    simp only [num] at h
    have h0 := hf 0 (by omega)
    have h0' := hg 0 (by omega)
    intro i hi
    match i with
    | 0 => omega
    | i + 1 => exact ih hf.tail hg.tail (by omega) i (by omega)

/-- Limb `i` of a number. -/
def limb (x i : Nat) : Nat := x / (2 ^ 128) ^ i % 2 ^ 128

theorem limb_small (x n : Nat) : Small (limb x) n := fun _ _ => Nat.mod_lt _ (by omega)

theorem num_limb {x n : Nat} (h : x < (2 ^ 128) ^ n) : num (limb x) n = x := by
  induction n generalizing x with
  | zero => simp only [Nat.pow_zero] at h; simp only [num]; omega
  | succ n ih =>
    have : x / 2 ^ 128 < (2 ^ 128) ^ n := by
      rw [Nat.div_lt_iff_lt_mul (by omega)]; rw [Nat.pow_succ] at h; exact h
    have h1 := ih this
    rw [num, num_congr (g := limb (x / 2 ^ 128)) fun i _ => by
      simp only [limb, Nat.pow_succ, Nat.div_div_eq_div_mul, Nat.mul_comm], h1]
    simp only [limb, Nat.pow_zero, Nat.div_one]; omega

theorem num_limb_le {x n : Nat} (k : Nat) (h : x < (2 ^ 128) ^ n) : num (limb x) (n + k) = x :=
  num_limb (Nat.lt_of_lt_of_le h (Nat.pow_le_pow_right (by omega) (by omega)))

/-! ### The memory -/

/-- The general segment of the current context: segment 7. -/
def base (w : World) : Nat := w.ctx * 2 ^ 64 + 0x700000000

/-- The cells from offset `l` of the general segment on. -/
def limbs (w : World) (l : Nat) : Nat → Nat := fun i => w.mem (base w + (l + i))

/-- Only the `n` cells from offset `l` of the general segment on may have changed. -/
def Leaves (w w' : World) (l n : Nat) : Prop :=
  w'.ctx = w.ctx ∧ ∀ a, (a < base w + l ∨ base w + l + n ≤ a) → w'.mem a = w.mem a

/-- The two stretches of `n` and `k` cells do not meet. -/
def Apart (l n l' k : Nat) : Prop := l + n ≤ l' ∨ l' + k ≤ l

theorem Leaves.base_eq {w w' : World} {l n : Nat} (h : Leaves w w' l n) : base w' = base w := by
  simp only [base, h.1]

theorem Leaves.limbs_eq {w w' : World} {l n l' k i : Nat} (h : Leaves w w' l n) (ha : Apart l n l' k)
    (hi : i < k) : limbs w' l' i = limbs w l' i := by
  simp only [limbs, h.base_eq]
  refine h.2 _ ?_
  rcases ha with ha | ha <;> omega

theorem Leaves.num_eq {w w' : World} {l n l' k : Nat} (h : Leaves w w' l n) (ha : Apart l n l' k) :
    num (limbs w' l') k = num (limbs w l') k := num_congr fun _ hi => h.limbs_eq ha hi

theorem Leaves.small {w w' : World} {l n l' k : Nat} (h : Leaves w w' l n) (ha : Apart l n l' k)
    (hs : Small (limbs w l') k) : Small (limbs w' l') k :=
  fun i hi => by rw [h.limbs_eq ha hi]; exact hs i hi

theorem Leaves.trans {w w' w'' : World} {l n : Nat} (h : Leaves w w' l n) (h' : Leaves w' w'' l n) :
    Leaves w w'' l n :=
  ⟨h'.1.trans h.1, fun a ha => (h'.2 a (by rw [h.base_eq]; exact ha)).trans (h.2 a ha)⟩

theorem Leaves.refl (w : World) (l n : Nat) : Leaves w w l n := ⟨rfl, fun _ _ => rfl⟩

theorem Leaves.widen {w w' : World} {l n l' n' : Nat} (h : Leaves w w' l n) (h1 : l' ≤ l)
    (h2 : l + n ≤ l' + n') : Leaves w w' l' n' :=
  ⟨h.1, fun a ha => h.2 a (by omega)⟩

theorem leaves_set {w : World} {l i n v : Nat} (hi : i < n) :
    Leaves w (w.set (base w + (l + i)) v) l n :=
  ⟨rfl, fun a ha => set_ne (by omega)⟩

theorem leaves_set' {w : World} {l n v : Nat} (hn : 0 < n) : Leaves w (w.set (base w + l) v) l n :=
  ⟨rfl, fun a ha => set_ne (by omega)⟩

/-! ### Access to the general segment -/

section
variable {P : Prog} {c : List I} {s : List Nat} {w : World} {l v : Nat}

theorem base_lt (hc : w.ctx < 2 ^ 32) : base w < 2 ^ 97 := by simp only [base]; omega

theorem exec_general : exec P (m_build_current_general_address_no_offset ++ c) s w
    = exec P c (wadd (w.ctx * 2 ^ 64) 0x700000000 :: s) w := by
  kexec [m_build_current_general_address_no_offset, m_build_address_no_offset]

theorem general_base (hc : w.ctx < 2 ^ 32) : wadd (w.ctx * 2 ^ 64) 0x700000000 = base w := by
  simp only [base]; exact wadd_small (by omega)

theorem wadd_base (hc : w.ctx < 2 ^ 32) (hl : l < 2 ^ 32) : wadd (base w) l = base w + l :=
  wadd_small (by have := base_lt hc; omega)

theorem wadd_base' (hc : w.ctx < 2 ^ 32) (hl : l < 2 ^ 32) : wadd l (base w) = base w + l := by
  rw [Nat.add_comm]; exact wadd_small (by have := base_lt hc; omega)

theorem exec_load (hc : w.ctx < 2 ^ 32) (hl : l < 2 ^ 32) :
    exec P (MLOAD_GENERAL :: c) ((base w + l) :: s) w = exec P c (w.mem (base w + l) :: s) w := by
  rw [exec_mload (by simp only [SegOk, base]; omega), show key (base w + l) = base w + l by
    simp only [key, base]; omega]

theorem exec_store (hc : w.ctx < 2 ^ 32) (hl : l < 2 ^ 32) :
    exec P (MSTORE_GENERAL :: c) (v :: (base w + l) :: s) w
      = exec P c s (w.set (base w + l) v) := by
  rw [exec_mstore (by simp only [SegOk, base]; omega), show key (base w + l) = base w + l by
    simp only [key, base]; omega]

theorem limbs_zero : limbs w l 0 = w.mem (base w + l) := rfl

theorem limbs_succ : (fun i => limbs w l (i + 1)) = limbs w (l + 1) := by
  funext i; simp only [limbs]; congr 1; omega

end

end Verif.Kasm
