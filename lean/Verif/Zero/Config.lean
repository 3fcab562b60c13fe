import Verif.Zero.Parse
/-!
# Circuit files on disk (`zero/src/prover_state`) (C65, C66, C67)

Names of the files, and a cache directory under sequences of runs, crashes and deletions.
-/
set_option linter.unusedSimpArgs false
namespace Verif.Zero.Config
open Verif.Zero

/-! ## Model: names -/

/-- `Circuit`. `zero/src/prover_state/circuit.rs:54-68`. `poseidon` exists with the feature `cdk_erigon`. -/
inductive Circuit where
  | arithmetic | bytePacking | cpu | keccak | keccakSponge | logic | memory | memoryBefore | memoryAfter | poseidon
deriving DecidableEq

/-- `Circuit::as_short_str`. `zero/src/prover_state/circuit.rs:130-144`. -/
def Circuit.short : Circuit → Str
  | .arithmetic => ['a']
  | .bytePacking => ['b', 'p']
  | .cpu => ['c']
  | .keccak => ['k']
  | .keccakSponge => ['k', 's']
  | .logic => ['l']
  | .memory => ['m']
  | .memoryBefore => ['m', '_', 'b']
  | .memoryAfter => ['m', '_', 'a']
  | .poseidon => ['p']

/-- `From<usize> for Circuit` over `0..NUM_TABLES`. `zero/src/prover_state/circuit.rs:143-159`. -/
def circuits (cdk : Bool) : List Circuit :=
  [.arithmetic, .bytePacking, .cpu, .keccak, .keccakSponge, .logic, .memory, .memoryBefore, .memoryAfter] ++
    (if cdk then [.poseidon] else [])

/-- `CircuitConfig`: one range of sizes for each circuit, in the order of `circuits`.
`zero/src/prover_state/circuit.rs:161-165`. -/
structure Cfg where
  ranges : List (Nat × Nat)
  useTest : Bool
deriving DecidableEq

/-- The array of ranges has `NUM_TABLES` entries. -/
def Cfg.Wf (cdk : Bool) (g : Cfg) : Prop := g.ranges.length = (circuits cdk).length

/-- `format!("{}_{}-{}", short, start, end)`. `zero/src/prover_state/circuit.rs:231-233`. -/
def item (x : Circuit × (Nat × Nat)) : Str :=
  x.1.short ++ '_' :: (showNat x.2.1 ++ '-' :: showNat x.2.2)

/-- The closure of the fold: a separator unless the accumulator is empty. `zero/src/prover_state/circuit.rs:234-240`. -/
def push (acc s : Str) : Str := (if acc ≠ [] then acc ++ ['_'] else acc) ++ s

/-- `CircuitConfig::get_configuration_digest`. `zero/src/prover_state/circuit.rs:234-246`. -/
def digest (cdk : Bool) (g : Cfg) : Str := (((circuits cdk).zip g.ranges).map item).foldl push []

/-- The four kinds of files. `zero/src/prover_state/persistence.rs:117-257`. -/
inductive Res where
  | base (g : Cfg)
  | mono (g : Cfg)
  | table (c : Circuit) (size : Nat)
  | verifier (g : Cfg)

/-- `PROVER_STATE_FILE_PREFIX`. `zero/src/prover_state/persistence.rs:23`. -/
def proverPrefix : Str := ['p', 'r', 'o', 'v', 'e', 'r', '_', 's', 't', 'a', 't', 'e']

/-- `VERIFIER_STATE_FILE_PREFIX`. `zero/src/prover_state/persistence.rs:24`. -/
def verifierPrefix : Str := ['v', 'e', 'r', 'i', 'f', 'i', 'e', 'r', '_', 's', 't', 'a', 't', 'e']

/-- The tag of base files. `zero/src/prover_state/persistence.rs:128`. -/
def baseTag : Str := ['_', 'b', 'a', 's', 'e', '_']

/-- The tag of monolithic files. `zero/src/prover_state/persistence.rs:164`. -/
def monoTag : Str := ['_', 'm', 'o', 'n', 'o', 'l', 'i', 't', 'h', 'i', 'c', '_']

/-- `DiskResource::path`, without the directory; `kh` is the beginning of the kernel hash.
`zero/src/prover_state/persistence.rs:126-134,162-170,198-207,237-245`. -/
def path (cdk : Bool) (kh : Str) : Res → Str
  | .base g => proverPrefix ++ baseTag ++ kh ++ '_' :: digest cdk g
  | .mono g => proverPrefix ++ monoTag ++ kh ++ '_' :: digest cdk g
  | .table c n => proverPrefix ++ '_' :: (kh ++ '_' :: (c.short ++ '_' :: showNat n))
  | .verifier g => verifierPrefix ++ '_' :: (kh ++ '_' :: digest cdk g)

/-! ## Specification: names -/

/-- The kernel hash in file names: eight lower case hexadecimal digits (`zero/src/prover_state/persistence.rs:25-28`,
`KERNEL_HASH`). -/
def Hex8 (s : Str) : Prop := s.length = 8 ∧ ∀ c, c ∈ s → c ∈ "0123456789abcdef".toList

/-- The same resource, ignoring whether the test configuration is used. -/
def Res.Same : Res → Res → Prop
  | .base g, .base g' => g.ranges = g'.ranges
  | .mono g, .mono g' => g.ranges = g'.ranges
  | .table c n, .table c' n' => c = c' ∧ n = n'
  | .verifier g, .verifier g' => g.ranges = g'.ranges
  | _, _ => False

/-- The configuration of a resource has one range for each circuit. -/
def Res.Wf (cdk : Bool) : Res → Prop
  | .base g | .mono g | .verifier g => g.Wf cdk
  | .table _ _ => True

/-! ## Proofs: names -/

def IsDigit (c : Char) : Prop := ∃ d, d < 10 ∧ c = Char.ofNat (48 + d)

theorem showNat_digits (n : Nat) : ∀ c, c ∈ showNat n → IsDigit c := by
  obtain ⟨ds, _, h2, _, h4⟩ := showNat_spec n
  rw [h4]
  intro c hc
  obtain ⟨d, hd, rfl⟩ := List.mem_map.1 hc
  exact ⟨d, h2 d hd, rfl⟩

theorem showNat_cons (n : Nat) : ∃ c s, showNat n = c :: s ∧ IsDigit c := by
  obtain ⟨ds, h1, h2, _, h4⟩ := showNat_spec n
  cases ds with
  | nil => exact absurd rfl h1
  | cons d ds => exact ⟨_, _, by rw [h4]; rfl, d, h2 d (List.mem_cons_self ..), rfl⟩

theorem isDigit_or {c : Char} (h : IsDigit c) : c = '0' ∨ c = '1' ∨ c = '2' ∨ c = '3' ∨ c = '4' ∨ c = '5' ∨ c = '6' ∨
    c = '7' ∨ c = '8' ∨ c = '9' := by
  obtain ⟨d, hd, rfl⟩ := h
  have : ∀ d : Fin 10, Char.ofNat (48 + d.val) = '0' ∨ Char.ofNat (48 + d.val) = '1' ∨ Char.ofNat (48 + d.val) = '2' ∨
      Char.ofNat (48 + d.val) = '3' ∨ Char.ofNat (48 + d.val) = '4' ∨ Char.ofNat (48 + d.val) = '5' ∨
      Char.ofNat (48 + d.val) = '6' ∨ Char.ofNat (48 + d.val) = '7' ∨ Char.ofNat (48 + d.val) = '8' ∨
      Char.ofNat (48 + d.val) = '9' := by decide
  exact this ⟨d, hd⟩

theorem not_digit {c : Char} (h : c ∈ ['_', '-', 'a', 'b']) : ¬ IsDigit c := by
  intro hd
  have hc := isDigit_or hd
  simp only [List.mem_cons, List.not_mem_nil, or_false] at h
  clear hd
  rcases h with rfl | rfl | rfl | rfl <;> revert hc <;> decide

/-- Equal strings that start with a decimal number agree on the number and on the rest. -/
theorem digits_span : ∀ {l l' r r' : Str}, (∀ c, c ∈ l → IsDigit c) → (∀ c, c ∈ l' → IsDigit c) →
    (∀ c s, r = c :: s → ¬ IsDigit c) → (∀ c s, r' = c :: s → ¬ IsDigit c) → l ++ r = l' ++ r' → l = l' ∧ r = r'
  | [], [], _, _, _, _, _, _, h => ⟨rfl, h⟩
  | [], c :: l', r, r', _, h2, h3, _, h => absurd (h2 c (List.mem_cons_self ..)) (h3 c _ h)
  | c :: l, [], r, r', h1, _, _, h4, h => absurd (h1 c (List.mem_cons_self ..)) (h4 c _ h.symm)
  | c :: l, c' :: l', r, r', h1, h2, h3, h4, h => by
    simp only [List.cons_append, List.cons.injEq] at h
    have := digits_span (fun x hx => h1 x (List.mem_cons_of_mem _ hx)) (fun x hx => h2 x (List.mem_cons_of_mem _ hx)) h3 h4 h.2
    exact ⟨by rw [h.1, this.1], this.2⟩

theorem showNat_span {m n : Nat} {r r' : Str} (h3 : ∀ c s, r = c :: s → ¬ IsDigit c) (h4 : ∀ c s, r' = c :: s → ¬ IsDigit c)
    (h : showNat m ++ r = showNat n ++ r') : m = n ∧ r = r' := by
  have := digits_span (showNat_digits m) (showNat_digits n) h3 h4 h
  exact ⟨showNat_inj this.1, this.2⟩

/-- The digest, from the left. -/
def dig : List (Circuit × (Nat × Nat)) → Str
  | [] => []
  | x :: l => item x ++ (l.map (fun y => '_' :: item y)).flatten

theorem item_ne (x : Circuit × (Nat × Nat)) : item x ≠ [] := by
  unfold item; simp

theorem foldl_push (l : List (Circuit × (Nat × Nat))) : ∀ acc, acc ≠ [] →
    (l.map item).foldl push acc = acc ++ (l.map (fun y => '_' :: item y)).flatten := by
  induction l with
  | nil => intro acc _; simp
  | cons x l ih =>
    intro acc h
    rw [List.map_cons, List.foldl_cons, ih _ (by unfold push; rw [if_pos h]; simp [item_ne])]
    unfold push
    rw [if_pos h]
    simp

theorem digest_eq (cdk : Bool) (g : Cfg) : digest cdk g = dig ((circuits cdk).zip g.ranges) := by
  unfold digest
  generalize (circuits cdk).zip g.ranges = l
  cases l with
  | nil => rfl
  | cons x l =>
    rw [List.map_cons, List.foldl_cons]
    rw [foldl_push l (push [] (item x)) (by unfold push; simp [item_ne])]
    rfl

theorem item_span {c : Circuit} {x y : Nat × Nat} {r r' : Str} (h3 : ∀ c s, r = c :: s → ¬ IsDigit c)
    (h4 : ∀ c s, r' = c :: s → ¬ IsDigit c) (h : item (c, x) ++ r = item (c, y) ++ r') : x = y ∧ r = r' := by
  simp only [item, List.append_assoc, List.cons_append] at h
  have h := List.append_cancel_left h
  simp only [List.cons.injEq, true_and] at h
  obtain ⟨e1, h⟩ := showNat_span (fun c s hc => by cases hc; exact not_digit (by decide))
    (fun c s hc => by cases hc; exact not_digit (by decide)) h
  simp only [List.cons.injEq, true_and] at h
  obtain ⟨e2, h⟩ := showNat_span h3 h4 h
  exact ⟨Prod.ext e1 e2, h⟩

theorem sep_no_digit (l : List (Circuit × (Nat × Nat))) : ∀ c s, (l.map (fun y => '_' :: item y)).flatten = c :: s → ¬ IsDigit c := by
  intro c s h
  cases l with
  | nil => cases h
  | cons x l =>
    simp only [List.map_cons, List.flatten_cons, List.cons_append, List.cons.injEq] at h
    rw [← h.1]
    exact not_digit (by decide)

theorem dig_tail_inj : ∀ (cs : List Circuit) (rs rs' : List (Nat × Nat)), rs.length = cs.length → rs'.length = cs.length →
    (((cs.zip rs).map (fun y => '_' :: item y)).flatten = ((cs.zip rs').map (fun y => '_' :: item y)).flatten) → rs = rs'
  | [], [], [], _, _, _ => rfl
  | c :: cs, r :: rs, r' :: rs', h1, h2, h => by
    simp only [List.zip_cons_cons, List.map_cons, List.flatten_cons, List.cons_append, List.cons.injEq, true_and] at h
    obtain ⟨e, h⟩ := item_span (sep_no_digit _) (sep_no_digit _) h
    rw [e, dig_tail_inj cs rs rs' (by simpa using h1) (by simpa using h2) h]

theorem dig_inj : ∀ (cs : List Circuit) (rs rs' : List (Nat × Nat)), rs.length = cs.length → rs'.length = cs.length →
    dig (cs.zip rs) = dig (cs.zip rs') → rs = rs'
  | [], [], [], _, _, _ => rfl
  | c :: cs, r :: rs, r' :: rs', h1, h2, h => by
    simp only [List.zip_cons_cons, dig] at h
    obtain ⟨e, h⟩ := item_span (sep_no_digit _) (sep_no_digit _) h
    rw [e, dig_tail_inj cs rs rs' (by simpa using h1) (by simpa using h2) h]

/-- **C65.** Configurations with different circuit sizes have different digests. -/
theorem C65_digest_partial {cdk : Bool} {g g' : Cfg} (h : g.Wf cdk) (h' : g'.Wf cdk) (e : digest cdk g = digest cdk g') :
    g.ranges = g'.ranges := by
  rw [digest_eq, digest_eq] at e
  exact dig_inj _ _ _ h h' e

theorem short_span {c c' : Circuit} {n n' : Nat} (h : c.short ++ '_' :: showNat n = c'.short ++ '_' :: showNat n') : c = c' ∧ n = n' := by
  obtain ⟨x, s, hx, hd⟩ := showNat_cons n
  obtain ⟨x', s', hx', hd'⟩ := showNat_cons n'
  have na : x ≠ 'a' ∧ x ≠ 'b' := ⟨fun e => not_digit (c := 'a') (by decide) (e ▸ hd), fun e => not_digit (c := 'b') (by decide) (e ▸ hd)⟩
  have na' : x' ≠ 'a' ∧ x' ≠ 'b' := ⟨fun e => not_digit (c := 'a') (by decide) (e ▸ hd'), fun e => not_digit (c := 'b') (by decide) (e ▸ hd')⟩
  have key : c = c' := by
    rw [hx, hx'] at h
    cases c <;> cases c' <;> simp [Circuit.short, na, na'.1.symm, na'.2.symm] at h ⊢
  subst key
  have h := List.append_cancel_left h
  simp only [List.cons.injEq, true_and] at h
  exact ⟨rfl, showNat_inj h⟩

theorem hex8_cons {s : Str} (h : Hex8 s) : ∃ a b c t, s = a :: b :: c :: t ∧ a ≠ 'm' ∧ c ≠ 's' := by
  obtain ⟨h1, h2⟩ := h
  match s, h1, h2 with
  | a :: b :: c :: t, _, h2 =>
    refine ⟨a, b, c, t, rfl, ?_, ?_⟩
    · intro e
      have := h2 a (by simp)
      rw [e] at this
      revert this
      decide
    · intro e
      have := h2 c (by simp)
      rw [e] at this
      revert this
      decide

theorem hex8_span {a b r r' : Str} (ha : Hex8 a) (hb : Hex8 b) (h : a ++ r = b ++ r') : a = b ∧ r = r' :=
  List.append_inj h (by rw [ha.1, hb.1])

/-- **C65.** Two files have the same name only if they hold the same kind of resource, for the same kernel, for the
same circuit sizes (base, complete and verifier circuits) or for the same circuit and size (table circuits). -/
theorem C65_paths_partial {cdk : Bool} {kh kh' : Str} (hk : Hex8 kh) (hk' : Hex8 kh') {r r' : Res} (h : r.Wf cdk) (h' : r'.Wf cdk)
    (e : path cdk kh r = path cdk kh' r') : kh = kh' ∧ r.Same r' := by
  obtain ⟨a, b, c, t, hkh, ha, hc⟩ := hex8_cons hk
  obtain ⟨a', b', c', t', hkh', ha', hc'⟩ := hex8_cons hk'
  have tail : ∀ {g g' : Cfg}, g.Wf cdk → g'.Wf cdk → kh ++ '_' :: digest cdk g = kh' ++ '_' :: digest cdk g' →
      kh = kh' ∧ g.ranges = g'.ranges := by
    intro g g' hg hg' e
    obtain ⟨e1, e2⟩ := hex8_span hk hk' e
    simp only [List.cons.injEq, true_and] at e2
    exact ⟨e1, C65_digest_partial hg hg' e2⟩
  cases r with
  | base g =>
    cases r' with
    | base g' =>
      simp only [path, List.append_assoc] at e
      exact tail h h' (List.append_cancel_left (List.append_cancel_left e))
    | mono g' => simp [path, proverPrefix, verifierPrefix, baseTag, monoTag] at e
    | table c' n' =>
      rw [hkh'] at e
      simp [path, proverPrefix, verifierPrefix, baseTag, monoTag] at e
      exact absurd e.2.2.1.symm hc'
    | verifier g' => simp [path, proverPrefix, verifierPrefix, baseTag, monoTag] at e
  | mono g =>
    cases r' with
    | mono g' =>
      simp only [path, List.append_assoc] at e
      exact tail h h' (List.append_cancel_left (List.append_cancel_left e))
    | base g' => simp [path, proverPrefix, verifierPrefix, baseTag, monoTag] at e
    | table c' n' =>
      rw [hkh'] at e
      simp [path, proverPrefix, verifierPrefix, baseTag, monoTag] at e
      exact absurd e.1.symm ha'
    | verifier g' => simp [path, proverPrefix, verifierPrefix, baseTag, monoTag] at e
  | table c n =>
    cases r' with
    | table c' n' =>
      simp only [path] at e
      have e := List.append_cancel_left e
      simp only [List.cons.injEq, true_and] at e
      obtain ⟨e1, e2⟩ := hex8_span hk hk' e
      simp only [List.cons.injEq, true_and] at e2
      exact ⟨e1, short_span e2⟩
    | base g' =>
      rw [hkh] at e
      simp [path, proverPrefix, verifierPrefix, baseTag, monoTag] at e
      exact absurd e.2.2.1 hc
    | mono g' =>
      rw [hkh] at e
      simp [path, proverPrefix, verifierPrefix, baseTag, monoTag] at e
      exact absurd e.1 ha
    | verifier g' => simp [path, proverPrefix, verifierPrefix, baseTag, monoTag] at e
  | verifier g =>
    cases r' with
    | verifier g' =>
      simp only [path] at e
      have e := List.append_cancel_left e
      simp only [List.cons.injEq, true_and] at e
      exact tail h h' e
    | base g' => simp [path, proverPrefix, verifierPrefix, baseTag, monoTag] at e
    | mono g' => simp [path, proverPrefix, verifierPrefix, baseTag, monoTag] at e
    | table c' n' => simp [path, proverPrefix, verifierPrefix, baseTag, monoTag] at e

/-- C65, in full: configurations that build different circuits have different digests. -/
def C65_statement : Prop := ∀ (cdk : Bool) (g g' : Cfg), g.Wf cdk → g'.Wf cdk → digest cdk g = digest cdk g' → g = g'

/-- The default sizes. `zero/src/prover_state/circuit.rs:78-92`. -/
def defaultRanges : List (Nat × Nat) :=
  [(16, 23), (9, 21), (12, 25), (14, 20), (9, 15), (12, 18), (17, 28), (7, 23), (7, 27)]

/-- **C65 is violated.** The digest leaves out whether the low-security test configuration is used. -/
theorem C65_violated : ¬ C65_statement := by
  intro h
  have := h false ⟨defaultRanges, false⟩ ⟨defaultRanges, true⟩ rfl rfl rfl
  revert this
  decide

example : digest false ⟨defaultRanges, false⟩ =
    "a_16-23_bp_9-21_c_12-25_k_14-20_ks_9-15_l_12-18_m_17-28_m_b_7-23_m_a_7-27".toList := by decide +kernel

example : Hex8 "0f3a9c1e".toList ∧ Res.Wf false (.base ⟨defaultRanges, true⟩) ∧
    path false "0f3a9c1e".toList (.table .memoryBefore 17) = "prover_state_0f3a9c1e_m_b_17".toList := by
  refine ⟨⟨rfl, ?_⟩, rfl, ?_⟩ <;> decide +kernel

end Verif.Zero.Config
