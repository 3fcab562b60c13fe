/-! The Keccak-f[1600] permutation as FIPS 202 defines it, bit by bit. Nothing here refers to the code. -/

namespace Verif.Stark.Keccak.Spec

/-- A state: the bit at `(x, y, z)` for `x, y < 5` and `z < 64`. FIPS 202, 3.1. -/
abbrev State : Type := Nat → Nat → Nat → Bool

/-- The parity of a column. FIPS 202, Algorithm 1, step 1. -/
def parity (A : State) (x z : Nat) : Bool := A x 0 z ^^ A x 1 z ^^ A x 2 z ^^ A x 3 z ^^ A x 4 z

/-- θ. FIPS 202, Algorithm 1: each bit is added to the parities of two columns, the one to the left and the one to the right and
one further back. -/
def theta (A : State) : State := fun x y z => A x y z ^^ parity A ((x + 4) % 5) z ^^ parity A ((x + 1) % 5) ((z + 63) % 64)

/-- The walk of Algorithm 2: lane and offset `(t + 1) (t + 2) / 2` for `t = 0, …, 23`, starting from the lane `(1, 0)`. -/
def rhoWalk : Nat → Nat → Nat → Nat → List ((Nat × Nat) × Nat)
  | 0, _, _, _ => []
  | n + 1, t, x, y => ((x, y), (t + 1) * (t + 2) / 2) :: rhoWalk n (t + 1) y ((2 * x + 3 * y) % 5)

/-- The offset of a lane; that of the lane `(0, 0)` is zero. -/
def rhoOffset (x y : Nat) : Nat := ((rhoWalk 24 0 1 0).lookup (x, y)).getD 0

/-- ρ. FIPS 202, Algorithm 2: each lane is rotated by its offset. -/
def rho (A : State) : State := fun x y z => A x y ((z + 64 - rhoOffset x y % 64) % 64)

/-- π. FIPS 202, Algorithm 3. -/
def pi (A : State) : State := fun x y z => A ((x + 3 * y) % 5) x z

/-- χ. FIPS 202, Algorithm 4. -/
def chi (A : State) : State := fun x y z => A x y z ^^ (!A ((x + 1) % 5) y z && A ((x + 2) % 5) y z)

/-- One step of the shift register of Algorithm 5: `R = 0 ‖ R`, then the bits 0, 4, 5 and 6 are added to the bit 8, which is cut
off. -/
def lfsr (R : List Bool) : List Bool :=
  let b := R.getD 7 false
  [b, R.getD 0 false, R.getD 1 false, R.getD 2 false, R.getD 3 false ^^ b, R.getD 4 false ^^ b, R.getD 5 false ^^ b, R.getD 6 false]

/-- `n` steps of the register. -/
def lfsrs : Nat → List Bool → List Bool
  | 0, R => R
  | n + 1, R => lfsrs n (lfsr R)

/-- `rc(t)`. FIPS 202, Algorithm 5. -/
def rc (t : Nat) : Bool := (lfsrs (t % 255) [true, false, false, false, false, false, false, false]).getD 0 false

/-- The bits of the round constant: `RC[2^j - 1] = rc(j + 7 ir)` for `j = 0, …, 6`, the others are zero. FIPS 202, Algorithm 6,
steps 2 and 3. -/
def rcBit (ir z : Nat) : Bool := (List.range 7).any (fun j => decide (z = 2 ^ j - 1) && rc (j + 7 * ir))

/-- ι. FIPS 202, Algorithm 6: the lane `(0, 0)` is added to the round constant. -/
def iota (ir : Nat) (A : State) : State := fun x y z => if x = 0 ∧ y = 0 then A x y z ^^ rcBit ir z else A x y z

/-- One round. FIPS 202, 3.3. -/
def round (ir : Nat) (A : State) : State := iota ir (chi (pi (rho (theta A))))

/-- The first `n` rounds. -/
def rounds : Nat → State → State
  | 0, A => A
  | n + 1, A => round n (rounds n A)

/-- Keccak-f[1600]: twenty-four rounds. FIPS 202, 3.4. -/
def keccakF (A : State) : State := rounds 24 A

/-! ### States as lanes, to try the specification on known values -/

/-- The state with the given lanes, the lane `(x, y)` being the one of index `5 y + x`. FIPS 202, 3.1.2. -/
def ofLanes (L : List Nat) : State := fun x y z => (L.getD (5 * y + x) 0).testBit z

/-- The number with the given bits. -/
def laneOf (f : Nat → Bool) : Nat → Nat
  | 0 => 0
  | n + 1 => laneOf f n + if f n then 2 ^ n else 0

/-- The lanes of a state. -/
def lanes (A : State) : List Nat := (List.range 25).map (fun i => laneOf (A (i % 5) (i / 5)) 64)

theorem laneOf_lt (f : Nat → Bool) (n : Nat) : laneOf f n < 2 ^ n := by
  induction n with
  | zero => exact Nat.zero_lt_one
  | succ n ih => rw [laneOf, Nat.pow_succ]; split <;> omega

theorem testBit_laneOf (f : Nat → Bool) (n z : Nat) (h : z < n) : (laneOf f n).testBit z = f z := by
  induction n with
  | zero => omega
  | succ n ih =>
    have hl := laneOf_lt f n
    have e : laneOf f (n + 1) = 2 ^ n * (f n).toNat + laneOf f n := by
      rw [laneOf]; cases f n <;> simp [Nat.add_comm]
    rw [e, Nat.testBit_two_pow_mul_add _ hl]
    by_cases hz : z < n
    · rw [if_pos hz, ih hz]
    · have : z = n := by omega
      rw [if_neg hz, this, Nat.sub_self]; cases f n <;> decide

/-- Two states with the same bits. -/
def Same (A B : State) : Prop := ∀ x < 5, ∀ y < 5, ∀ z < 64, A x y z = B x y z

theorem same_ofLanes_lanes (A : State) : Same (ofLanes (lanes A)) A := by
  intro x hx y hy z hz
  have h : 5 * y + x < 25 := by omega
  have e1 : (5 * y + x) % 5 = x := by omega
  have e2 : (5 * y + x) / 5 = y := by omega
  rw [ofLanes, lanes, List.getD_eq_getElem?_getD, List.getElem?_map, List.getElem?_range h, Option.map_some, Option.getD_some, e1, e2,
    testBit_laneOf _ _ _ hz]

theorem Same.trans {A B C : State} (h : Same A B) (h' : Same B C) : Same A C :=
  fun x hx y hy z hz => (h x hx y hy z hz).trans (h' x hx y hy z hz)

theorem parity_congr {A B : State} (h : Same A B) {x z : Nat} (hx : x < 5) (hz : z < 64) : parity A x z = parity B x z := by
  simp only [parity, h x hx 0 (by decide) z hz, h x hx 1 (by decide) z hz, h x hx 2 (by decide) z hz, h x hx 3 (by decide) z hz,
    h x hx 4 (by decide) z hz]

theorem theta_congr {A B : State} (h : Same A B) : Same (theta A) (theta B) := by
  intro x hx y hy z hz
  simp only [theta, h x hx y hy z hz, parity_congr h (show (x + 4) % 5 < 5 by omega) hz,
    parity_congr h (show (x + 1) % 5 < 5 by omega) (show (z + 63) % 64 < 64 by omega)]

theorem rho_congr {A B : State} (h : Same A B) : Same (rho A) (rho B) :=
  fun x hx y hy z _ => h x hx y hy _ (by omega)

theorem pi_congr {A B : State} (h : Same A B) : Same (pi A) (pi B) :=
  fun x hx y _ z hz => h _ (by omega) x hx z hz

theorem chi_congr {A B : State} (h : Same A B) : Same (chi A) (chi B) := by
  intro x hx y hy z hz
  simp only [chi, h x hx y hy z hz, h ((x + 1) % 5) (by omega) y hy z hz, h ((x + 2) % 5) (by omega) y hy z hz]

theorem iota_congr {A B : State} (ir : Nat) (h : Same A B) : Same (iota ir A) (iota ir B) := by
  intro x hx y hy z hz
  simp only [iota, h x hx y hy z hz]

theorem round_congr {A B : State} (ir : Nat) (h : Same A B) : Same (round ir A) (round ir B) :=
  iota_congr ir (chi_congr (pi_congr (rho_congr (theta_congr h))))

theorem rounds_congr {A B : State} (n : Nat) (h : Same A B) : Same (rounds n A) (rounds n B) := by
  induction n with
  | zero => exact h
  | succ n ih => exact round_congr n ih

theorem lanes_congr {A B : State} (h : Same A B) : lanes A = lanes B := by
  have hl : ∀ (f g : Nat → Bool) (n : Nat), (∀ z < n, f z = g z) → laneOf f n = laneOf g n := by
    intro f g n
    induction n with
    | zero => intro _; rfl
    | succ n ih => intro hz; rw [laneOf, laneOf, ih (fun z h => hz z (by omega)), hz n (by omega)]
  refine List.map_congr_left (fun i hi => ?_)
  have := List.mem_range.1 hi
  exact hl _ _ _ (fun z hz => h _ (by omega) _ (by omega) z hz)

end Verif.Stark.Keccak.Spec
