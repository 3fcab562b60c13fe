/-!
# Circuit sizes on the command line (`zero/src/parsing.rs`, `zero/src/prover_state/circuit.rs`) (C31)

Strings are lists of characters.
-/
namespace Verif.Zero

abbrev Str := List Char

/-! ## Model -/

/-- The value of a decimal digit. -/
def digitVal (c : Char) : Option Nat := if '0' ≤ c ∧ c ≤ '9' then some (c.toNat - 48) else none

/-- The value of a string of decimal digits. -/
def decimal : Nat → Str → Option Nat
  | a, [] => some a
  | a, c :: s => (digitVal c).bind (fun d => decimal (10 * a + d) s)

/-- `strip_prefix('+')`. -/
def stripPlus : Str → Str
  | '+' :: s => s
  | s => s

/-- `usize::from_str` of the standard library: an optional plus sign and at least one digit, less than `2^64`. -/
def parseUsize (s : Str) : Option Nat :=
  if stripPlus s = [] then none
  else (decimal 0 (stripPlus s)).bind (fun n => if n < 2 ^ 64 then some n else none)

/-- `str::split("..")`: the pieces between the occurrences of the separator, from left to right. -/
def splitDots : Str → List Str
  | [] => [[]]
  | '.' :: '.' :: s => [] :: splitDots s
  | c :: s =>
    match splitDots s with
    | p :: ps => (c :: p) :: ps
    | [] => [[c]]

/-- `RangeParseError`. `zero/src/parsing.rs:7-22`. -/
inductive RangeErr where
  | empty | rhs | lhs | lhsMissing | rhsMissing
deriving DecidableEq

/-- `parse_range_exclusive`, `parse_range_gen`. `zero/src/parsing.rs:27-35, 37-67`. -/
def parseRange (s : Str) : Except RangeErr (Nat × Nat) :=
  match splitDots s with
  | [] => .error .empty
  | [p] => if p = [] then .error .empty else .error .rhsMissing
  | l :: r :: _ =>
    if r = [] then .error .rhsMissing
    else if l = [] then .error .lhsMissing
    else
      match parseUsize l, parseUsize r with
      | none, _ => .error .lhs
      | some _, none => .error .rhs
      | some a, some b => .ok (a, b)

/-- The decimal form of a number (`Display` of `usize`), most significant digit first. -/
def showNat (n : Nat) : Str :=
  if n < 10 then [Char.ofNat (48 + n)] else showNat (n / 10) ++ [Char.ofNat (48 + n % 10)]
termination_by n

/-- `Display` of `CircuitSize`. `zero/src/prover_state/circuit.rs:28-32`. -/
def showRange (r : Nat × Nat) : Str := showNat r.1 ++ '.' :: '.' :: showNat r.2

/-! ## Specification -/

/-- Digits from the least significant one. -/
def digitsVal : List Nat → Nat
  | [] => 0
  | d :: l => d + 10 * digitsVal l

/-- `s` is a numeral for `n < 2^64`: digits, perhaps after a plus sign. -/
def Numeral (s : Str) (n : Nat) : Prop :=
  ∃ ds : List Nat, ds ≠ [] ∧ (∀ d, d ∈ ds → d < 10) ∧ digitsVal ds.reverse = n ∧ n < 2 ^ 64 ∧
    (s = ds.map (fun d => Char.ofNat (48 + d)) ∨ s = '+' :: ds.map (fun d => Char.ofNat (48 + d)))

/-! ## Proofs -/

theorem digitVal_char {d : Nat} (h : d < 10) : digitVal (Char.ofNat (48 + d)) = some d := by
  have : ∀ d : Fin 10, digitVal (Char.ofNat (48 + d.val)) = some d.val := by decide
  exact this ⟨d, h⟩

theorem digitVal_some {c : Char} {d : Nat} (h : digitVal c = some d) : d < 10 ∧ c = Char.ofNat (48 + d) := by
  unfold digitVal at h
  split at h
  · rename_i hc
    have h1 : 48 ≤ c.toNat := hc.1
    have h2 : c.toNat ≤ 57 := hc.2
    have h3 := Option.some.inj h
    constructor
    · omega
    · rw [← h3, show 48 + (c.toNat - 48) = c.toNat by omega, Char.ofNat_toNat]
  · cases h

theorem digitsVal_append (l m : List Nat) : digitsVal (l ++ m) = digitsVal l + 10 ^ l.length * digitsVal m := by
  induction l with
  | nil => simp [digitsVal]
  | cons d l ih =>
    simp only [List.cons_append, digitsVal, ih, List.length_cons, Nat.pow_succ]
    rw [Nat.mul_add, Nat.add_assoc, ← Nat.mul_assoc, Nat.mul_comm 10 (10 ^ _)]

theorem decimal_spec (s : Str) (a n : Nat) :
    decimal a s = some n ↔ ∃ ds : List Nat, (∀ d, d ∈ ds → d < 10) ∧ s = ds.map (fun d => Char.ofNat (48 + d)) ∧
      n = a * 10 ^ ds.length + digitsVal ds.reverse := by
  induction s generalizing a with
  | nil =>
    constructor
    · intro h
      cases h
      exact ⟨[], by simp, rfl, by simp [digitsVal]⟩
    · rintro ⟨ds, _, h2, h3⟩
      have : ds = [] := by simpa using h2.symm
      subst this
      simp [decimal, h3, digitsVal]
  | cons c s ih =>
    rw [decimal]
    constructor
    · intro h
      rw [Option.bind_eq_some_iff] at h
      obtain ⟨d, hd, h⟩ := h
      obtain ⟨h1, h2⟩ := digitVal_some hd
      obtain ⟨ds, h3, h4, h5⟩ := (ih _).1 h
      refine ⟨d :: ds, ?_, by rw [h2, h4]; rfl, ?_⟩
      · intro x hx
        rcases List.mem_cons.1 hx with rfl | hx
        · exact h1
        · exact h3 x hx
      · rw [h5, List.reverse_cons, digitsVal_append, List.length_reverse, List.length_cons, Nat.pow_succ]
        simp only [digitsVal]
        rw [Nat.add_mul, Nat.mul_comm 10 a, Nat.mul_assoc, Nat.mul_comm 10 (10 ^ _), Nat.mul_zero, Nat.add_zero,
          Nat.mul_comm d]
        omega
    · rintro ⟨ds, h1, h2, h3⟩
      cases ds with
      | nil => cases h2
      | cons d ds =>
        have h4 := (List.cons.inj h2).1
        have h5 := (List.cons.inj h2).2
        rw [h4, digitVal_char (h1 d List.mem_cons_self)]
        show decimal (10 * a + d) s = some n
        rw [ih]
        refine ⟨ds, fun x hx => h1 x (List.mem_cons_of_mem _ hx), h5, ?_⟩
        rw [h3, List.reverse_cons, digitsVal_append, List.length_reverse, List.length_cons, Nat.pow_succ]
        simp only [digitsVal]
        rw [Nat.add_mul, Nat.mul_comm 10 a, Nat.mul_assoc, Nat.mul_comm 10 (10 ^ _), Nat.mul_zero, Nat.add_zero,
          Nat.mul_comm d]
        omega

theorem char_ne_plus {d : Nat} (h : d < 10) : Char.ofNat (48 + d) ≠ '+' ∧ Char.ofNat (48 + d) ≠ '.' := by
  have : ∀ d : Fin 10, Char.ofNat (48 + d.val) ≠ '+' ∧ Char.ofNat (48 + d.val) ≠ '.' := by decide
  exact this ⟨d, h⟩

theorem stripPlus_cases (s : Str) : (∃ r, s = '+' :: r ∧ stripPlus s = r) ∨ stripPlus s = s := by
  match s with
  | [] => exact Or.inr rfl
  | c :: s =>
    by_cases hc : c = '+'
    · subst hc; exact Or.inl ⟨s, rfl, rfl⟩
    · right
      unfold stripPlus
      split
      · rename_i h; cases h; exact absurd rfl hc
      · rfl

theorem parseUsize_spec (s : Str) (n : Nat) : parseUsize s = some n ↔ Numeral s n := by
  unfold parseUsize
  constructor
  · intro h
    split at h
    · cases h
    · rename_i hne
      rw [Option.bind_eq_some_iff] at h
      obtain ⟨m, hm, h⟩ := h
      split at h
      · rename_i hlt
        cases h
        obtain ⟨ds, h1, h2, h3⟩ := (decimal_spec _ _ _).1 hm
        refine ⟨ds, ?_, h1, by rw [h3]; simp, hlt, ?_⟩
        · rintro rfl
          exact hne h2
        · rcases stripPlus_cases s with ⟨r, hr, hs⟩ | hs
          · right; rw [hr, ← h2, hs]
          · left; rw [← hs, h2]
      · cases h
  · rintro ⟨ds, h1, h2, h3, h4, h5⟩
    have hs : stripPlus s = ds.map (fun d => Char.ofNat (48 + d)) := by
      rcases h5 with h5 | h5
      · cases ds with
        | nil => exact absurd rfl h1
        | cons d ds =>
          rcases stripPlus_cases s with ⟨r, hr, hs⟩ | hs
          · rw [hr] at h5
            exact absurd (List.cons.inj h5).1.symm (char_ne_plus (h2 d List.mem_cons_self)).1
          · rw [hs, h5]
      · rw [h5]; rfl
    rw [if_neg (by rw [hs]; simpa using h1), hs, (decimal_spec _ 0 n).2 ⟨ds, h2, rfl, by rw [h3]; simp⟩]
    simp [h4]

theorem numeral_no_dot {s : Str} {n : Nat} (h : Numeral s n) : '.' ∉ s ∧ s ≠ [] := by
  obtain ⟨ds, h1, h2, _, _, h5⟩ := h
  have key : '.' ∉ ds.map (fun d => Char.ofNat (48 + d)) := by
    intro hm
    obtain ⟨d, hd, he⟩ := List.mem_map.1 hm
    exact (char_ne_plus (h2 d hd)).2 he
  rcases h5 with rfl | rfl
  · exact ⟨key, by simpa using h1⟩
  · exact ⟨by
      intro hm
      rcases List.mem_cons.1 hm with h | h
      · exact absurd h (by decide)
      · exact key h, by simp⟩

theorem splitDots_ne (c : Char) (s : Str) (hc : c ≠ '.') : splitDots (c :: s) =
    (match splitDots s with | p :: ps => (c :: p) :: ps | [] => [[c]]) := by
  rw [splitDots]
  intro s' h1 h2
  exact hc h1

theorem splitDots_nil : ∀ s, splitDots s ≠ []
  | [] => by simp [splitDots]
  | c :: s => by
    rw [splitDots.eq_def]
    split
    · simp
    · simp
    · split <;> simp

theorem splitDots_plain {l : Str} (h : '.' ∉ l) : splitDots l = [l] := by
  induction l with
  | nil => rfl
  | cons c l ih =>
    have hc : c ≠ '.' := fun e => h (e ▸ List.mem_cons_self)
    rw [splitDots_ne c l hc, ih (fun hm => h (List.mem_cons_of_mem _ hm))]

theorem splitDots_sep {l : Str} (h : '.' ∉ l) (r : Str) : splitDots (l ++ '.' :: '.' :: r) = l :: splitDots r := by
  induction l with
  | nil => rw [List.nil_append, splitDots]
  | cons c l ih =>
    have hc : c ≠ '.' := fun e => h (e ▸ List.mem_cons_self)
    rw [List.cons_append, splitDots_ne c _ hc, ih (fun hm => h (List.mem_cons_of_mem _ hm))]

/-- The pieces joined by the separator are the string. -/
theorem splitDots_join : ∀ s : Str, ∀ p ps, splitDots s = p :: ps →
    s = p ++ ps.flatMap (fun q => '.' :: '.' :: q)
  | [], p, ps, h => by
    simp [splitDots] at h
    simp [h]
  | '.' :: '.' :: s, p, ps, h => by
    rw [splitDots] at h
    obtain ⟨rfl, rfl⟩ := List.cons.inj h
    cases hs : splitDots s with
    | nil => exact absurd hs (splitDots_nil s)
    | cons q qs =>
      have := splitDots_join s q qs hs
      simp only [List.flatMap_cons, List.nil_append, List.cons_append]
      rw [← this]
  | c :: s, p, ps, h => by
    by_cases hd : ∃ s', c = '.' ∧ s = '.' :: s'
    · obtain ⟨s', rfl, rfl⟩ := hd
      rw [splitDots] at h
      obtain ⟨rfl, rfl⟩ := List.cons.inj h
      cases hs : splitDots s' with
      | nil => exact absurd hs (splitDots_nil s')
      | cons q qs =>
        have := splitDots_join s' q qs hs
        simp only [List.flatMap_cons, List.nil_append, List.cons_append]
        rw [← this]
    · have hsp : splitDots (c :: s) = (match splitDots s with | p :: ps => (c :: p) :: ps | [] => [[c]]) := by
        rw [splitDots]
        intro s' h1 h2
        exact hd ⟨s', h1, h2⟩
      rw [hsp] at h
      cases hs : splitDots s with
      | nil => exact absurd hs (splitDots_nil s)
      | cons q qs =>
        rw [hs] at h
        obtain ⟨rfl, rfl⟩ := List.cons.inj h
        have := splitDots_join s q qs hs
        rw [List.cons_append, ← this]

/-- **C31**, in full: exactly the strings `start..end` are accepted, with the meaning they have. -/
def C31_statement : Prop :=
  ∀ (s : Str) (a b : Nat), parseRange s = .ok (a, b) ↔ ∃ l r, s = l ++ '.' :: '.' :: r ∧ Numeral l a ∧ Numeral r b

/-- What holds of C31: anything may follow a second separator. -/
theorem C31_parse_partial (s : Str) (a b : Nat) :
    parseRange s = .ok (a, b) ↔
      ∃ l r, Numeral l a ∧ Numeral r b ∧ (s = l ++ '.' :: '.' :: r ∨ ∃ t, s = l ++ '.' :: '.' :: (r ++ '.' :: '.' :: t)) := by
  constructor
  · intro h
    unfold parseRange at h
    split at h
    · cases h
    · split at h <;> cases h
    · rename_i l r rest hs
      split at h
      · cases h
      · split at h
        · cases h
        · split at h
          · cases h
          · cases h
          · rename_i x y hx hy
            cases h
            refine ⟨l, r, (parseUsize_spec _ _).1 hx, (parseUsize_spec _ _).1 hy, ?_⟩
            have hj := splitDots_join s l (r :: rest) hs
            cases rest with
            | nil => left; rw [hj]; simp
            | cons q qs =>
              right
              refine ⟨q ++ qs.flatMap (fun q => '.' :: '.' :: q), ?_⟩
              rw [hj]; simp
  · rintro ⟨l, r, hl, hr, h⟩
    have nl := numeral_no_dot hl
    have nr := numeral_no_dot hr
    have hs : ∃ rest, splitDots s = l :: r :: rest := by
      rcases h with rfl | ⟨t, rfl⟩
      · exact ⟨[], by rw [splitDots_sep nl.1, splitDots_plain nr.1]⟩
      · exact ⟨_, by rw [splitDots_sep nl.1, splitDots_sep nr.1]⟩
    obtain ⟨rest, hs⟩ := hs
    unfold parseRange
    rw [hs]
    simp only [if_neg nl.2, if_neg nr.2, (parseUsize_spec _ _).2 hl, (parseUsize_spec _ _).2 hr]

theorem showNat_spec (n : Nat) : ∃ ds : List Nat, ds ≠ [] ∧ (∀ d, d ∈ ds → d < 10) ∧ digitsVal ds.reverse = n ∧
    showNat n = ds.map (fun d => Char.ofNat (48 + d)) := by
  induction n using Nat.strongRecOn with
  | ind n ih =>
    rw [showNat]
    split
    · rename_i h
      exact ⟨[n], by simp, by simpa using h, by simp [digitsVal], rfl⟩
    · rename_i h
      obtain ⟨ds, h1, h2, h3, h4⟩ := ih (n / 10) (by omega)
      refine ⟨ds ++ [n % 10], by simp, ?_, ?_, by rw [h4]; simp⟩
      · intro d hd
        rcases List.mem_append.1 hd with hd | hd
        · exact h2 d hd
        · simp at hd; omega
      · rw [List.reverse_append]
        simp only [List.reverse_cons, List.reverse_nil, List.nil_append, List.cons_append, digitsVal, h3]
        omega

theorem showNat_numeral {n : Nat} (h : n < 2 ^ 64) : Numeral (showNat n) n := by
  obtain ⟨ds, h1, h2, h3, h4⟩ := showNat_spec n
  exact ⟨ds, h1, h2, h3, h, Or.inl h4⟩

/-- **C31**. Parsing the display form of a range gives the range. -/
theorem C31_roundtrip (r : Nat × Nat) (h1 : r.1 < 2 ^ 64) (h2 : r.2 < 2 ^ 64) : parseRange (showRange r) = .ok r := by
  have := (C31_parse_partial (showRange r) r.1 r.2).2
    ⟨_, _, showNat_numeral h1, showNat_numeral h2, Or.inl rfl⟩
  rw [this]

/-- Display forms of different numbers differ. -/
theorem showNat_inj {m n : Nat} (h : showNat m = showNat n) : m = n := by
  obtain ⟨ds, _, h2, h3, h4⟩ := showNat_spec m
  obtain ⟨es, _, g2, g3, g4⟩ := showNat_spec n
  have e1 := (decimal_spec (showNat m) 0 m).2 ⟨ds, h2, h4, by simp [h3]⟩
  have e2 := (decimal_spec (showNat n) 0 n).2 ⟨es, g2, g4, by simp [g3]⟩
  rw [h, e2] at e1
  exact (Option.some.inj e1).symm

/-- C31 does not hold in full: `1..2..x` is read as `1..2`. -/
theorem C31_violated : ¬ C31_statement := by
  intro h
  have h1 : parseRange "1..2..x".toList = .ok (1, 2) := by rfl
  obtain ⟨l, r, hs, hl, hr⟩ := (h _ _ _).1 h1
  have e1 := splitDots_sep (numeral_no_dot hl).1 r
  rw [splitDots_plain (numeral_no_dot hr).1, ← hs] at e1
  have e2 : splitDots "1..2..x".toList = ["1".toList, "2".toList, "x".toList] := by rfl
  rw [e2] at e1
  simp at e1

example : parseRange "16..23".toList = .ok (16, 23) ∧ parseRange "+16..023".toList = .ok (16, 23) ∧
    parseRange "16...23".toList = .error .rhs ∧ parseRange "..3".toList = .error .lhsMissing ∧
    showRange (16, 230) = "16..230".toList := by
  refine ⟨rfl, rfl, rfl, rfl, ?_⟩
  simp [showRange, showNat]

end Verif.Zero
