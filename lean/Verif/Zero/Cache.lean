import Verif.Zero.Config
/-!
# The circuit cache over sequences of runs and crashes (`zero/src/prover_state`) (C66, C67)

A disk is a map from file names to bytes. A run loads the circuits of its configuration or generates and writes
them; a run may be cut off by a crash at any byte of any write, and files may be deleted. Runs do not overlap in time.
-/
namespace Verif.Zero.Cache
open Verif.Zero Verif.Zero.Config

abbrev Bytes := List UInt8

/-- A serializer of plonky2 data: reading what was written gives it back; reading a file cut off by a crash fails. -/
structure Codec (α : Type) where
  enc : α → Bytes
  dec : Bytes → Option α
  roundtrip : ∀ x, dec (enc x) = some x
  torn : ∀ x p, p <+: enc x → p ≠ enc x → dec p = none

abbrev Tables (T : Type) := List (Circuit × List (Nat × T))

/-- Circuit generation and serialization (parameters). The upper circuits are a function of the configuration, a table
circuit of its size and of the recursion configuration
(`evm_arithmetization/src/fixed_recursive_verifier.rs:826-935,2953-2985`). -/
structure Gen (U T V : Type) where
  upper : Cfg → U
  tab : Bool → Circuit → Nat → T
  ver : U → V
  cU : Codec U
  cM : Codec (U × Tables T)
  cT : Codec T
  cV : Codec V

/-! ## Model -/

section
variable {U T V : Type} (G : Gen U T V) (cdk : Bool) (kh : Str)

/-- `by_table` of `as_all_recursive_circuits`. `zero/src/prover_state/circuit.rs:249-263`. -/
def tablesOf (g : Cfg) : Tables T :=
  ((circuits cdk).zip g.ranges).map (fun x => (x.1, (List.range' x.2.1 (x.2.2 - x.2.1)).map (fun n => (n, G.tab g.useTest x.1 n))))

abbrev Disk := Str → Option Bytes

/-- A file is replaced. -/
def set (d : Disk) (p : Str) (b : Bytes) : Disk := fun q => if q = p then some b else d q

/-- `DiskResource::put`s, one after the other. `zero/src/prover_state/persistence.rs:92-114`. -/
def writeAll (d : Disk) (l : List (Str × Bytes)) : Disk := l.foldl (fun d x => set d x.1 x.2) d

/-- The writes of `prover_to_disk`. `zero/src/prover_state/persistence.rs:313-330`. -/
def proverPuts (g : Cfg) : List (Str × Bytes) :=
  [(path cdk kh (.base g), G.cU.enc (G.upper g)),
   (path cdk kh (.mono g), G.cM.enc (G.upper g, tablesOf G cdk g))] ++
  (tablesOf G cdk g).flatMap (fun x => x.2.map (fun y => (path cdk kh (.table x.1 y.1), G.cT.enc y.2)))

/-- The write of the verifier data. `zero/src/prover_state/persistence.rs:266`. -/
def verifierPut (g : Cfg) : Str × Bytes := (path cdk kh (.verifier g), G.cV.enc (G.ver (G.upper g)))

/-- `persist_all_to_disk`. `zero/src/prover_state/persistence.rs:269-277`. -/
def allPuts (g : Cfg) : List (Str × Bytes) := proverPuts G cdk kh g ++ [verifierPut G cdk kh g]

/-- `CircuitPersistence` and `TableLoadStrategy`. `zero/src/prover_state/mod.rs:110-120, 133-138`. -/
inductive Persistence where
  | none | onDemand | monolithic
deriving DecidableEq

/-- `ProverStateManager`. `zero/src/prover_state/mod.rs:151-154`. -/
structure Mgr where
  cfg : Cfg
  pers : Persistence

/-- `DiskResource::get`. `zero/src/prover_state/persistence.rs:87-89`. -/
def get {α : Type} (c : Codec α) (d : Disk) (p : Str) : Option α := (d p).bind c.dec

/-- What `initialize` finds on disk; circuits loaded by `OnDemand` have no tables.
`zero/src/prover_state/mod.rs:313-324`. -/
def load (m : Mgr) (d : Disk) : Option (U × Tables T) :=
  match m.pers with
  | .none => Option.none
  | .onDemand => (get G.cU d (path cdk kh (.base m.cfg))).map (fun u => (u, []))
  | .monolithic => get G.cM d (path cdk kh (.mono m.cfg))

/-- The writes of `initialize`. `zero/src/prover_state/mod.rs:309-366`. -/
def initPuts (m : Mgr) (d : Disk) : List (Str × Bytes) :=
  if m.pers = .none then []
  else if (load G cdk kh m d).isSome then [] else allPuts G cdk kh m.cfg

/-- The prover state set by `initialize`. `zero/src/prover_state/mod.rs:309-366`. -/
def initState (m : Mgr) (d : Disk) : U × Tables T :=
  (load G cdk kh m d).getD (G.upper m.cfg, tablesOf G cdk m.cfg)

/-- The writes of `verifier`. `zero/src/prover_state/mod.rs:369-401`. -/
def verPuts (m : Mgr) (d : Disk) : List (Str × Bytes) :=
  if m.pers = .none then []
  else if (get G.cV d (path cdk kh (.verifier m.cfg))).isSome then [] else [verifierPut G cdk kh m.cfg]

/-- The verifier state returned by `verifier`. `zero/src/prover_state/mod.rs:369-401`. -/
def verState (m : Mgr) (d : Disk) : V :=
  if m.pers = .none then G.ver (G.upper m.cfg)
  else (get G.cV d (path cdk kh (.verifier m.cfg))).getD (G.ver (G.upper m.cfg))

/-- The table circuit used to shrink a proof of table `c` of size `n`: from the loaded state
(`evm_arithmetization/src/fixed_recursive_verifier.rs`, `prove_segment`), or from disk (`load_table_circuits`,
`zero/src/prover_state/mod.rs:176-204`; a file that cannot be read gives `None`, later an error). -/
def tableFor (m : Mgr) (st : U × Tables T) (d : Disk) (c : Circuit) (n : Nat) : Option T :=
  match m.pers with
  | .onDemand => get G.cT d (path cdk kh (.table c n))
  | _ => (st.2.lookup c).bind (fun l => l.lookup n)

/-- The disk after a crash during a list of writes: some writes are done, the next may have written part of its bytes. -/
def Crashed (d : Disk) (l : List (Str × Bytes)) (d' : Disk) : Prop :=
  ∃ done rest, l = done ++ rest ∧
    (d' = writeAll d done ∨ ∃ p b q l', rest = (p, b) :: l' ∧ q <+: b ∧ d' = set (writeAll d done) p q)

/-- What can happen to the cache directory. -/
inductive Ev where
  | init (m : Mgr)
  | initCrash (m : Mgr)
  | verifier (m : Mgr)
  | verifierCrash (m : Mgr)
  | deleteAll
  | deleteCrash

/-- The names removed by `delete_all`. `zero/src/prover_state/persistence.rs:281-307`. -/
def Deletable (p : Str) : Prop := proverPrefix <+: p ∨ verifierPrefix <+: p

/-- The effect of an event on the disk. -/
inductive Step : Disk → Ev → Disk → Prop where
  | init (m : Mgr) (d : Disk) : Step d (.init m) (writeAll d (initPuts G cdk kh m d))
  | initCrash (m : Mgr) (d d' : Disk) : Crashed d (initPuts G cdk kh m d) d' → Step d (.initCrash m) d'
  | verifier (m : Mgr) (d : Disk) : Step d (.verifier m) (writeAll d (verPuts G cdk kh m d))
  | verifierCrash (m : Mgr) (d d' : Disk) : Crashed d (verPuts G cdk kh m d) d' → Step d (.verifierCrash m) d'
  | deleteAll (d d' : Disk) : (∀ p, Deletable p → d' p = none) → (∀ p, ¬ Deletable p → d' p = d p) → Step d .deleteAll d'
  | deleteCrash (d d' : Disk) : (∀ p, d' p = none ∨ d' p = d p) → (∀ p, ¬ Deletable p → d' p = d p) → Step d .deleteCrash d'

/-- The disk after a sequence of events. -/
inductive Hist : Disk → List Ev → Disk → Prop where
  | nil (d : Disk) : Hist d [] d
  | cons {d d1 d2 : Disk} {e : Ev} {l : List Ev} : Step G cdk kh d e d1 → Hist d1 l d2 → Hist d (e :: l) d2

end

/-! ## Specification -/

/-- The managers of a history. -/
def Ev.mgr : Ev → Option Mgr
  | .init m | .initCrash m | .verifier m | .verifierCrash m => some m
  | .deleteAll | .deleteCrash => none

/-- All runs have one range for each circuit, and satisfy `P`. -/
def Runs (cdk : Bool) (P : Mgr → Prop) (l : List Ev) : Prop := ∀ e, e ∈ l → ∀ m, e.mgr = some m → m.cfg.Wf cdk ∧ P m

/-- No event is a crash. -/
def NoCrash (l : List Ev) : Prop := ∀ e, e ∈ l → (∃ m, e = .init m) ∨ (∃ m, e = .verifier m) ∨ e = .deleteAll

/-- The configured sizes of a circuit. -/
def Configured (cdk : Bool) (g : Cfg) (c : Circuit) (n : Nat) : Prop :=
  ∃ r, (c, r) ∈ (circuits cdk).zip g.ranges ∧ r.1 ≤ n ∧ n < r.2

/-- C66, in full: after any sequence of runs, crashes and deletions from an empty directory, a run uses the circuits
that its own configuration generates. -/
def C66_statement : Prop :=
  ∀ (U T V : Type) (G : Gen U T V) (cdk : Bool) (kh : Str) (l : List Ev) (d : Disk) (m : Mgr), Hex8 kh →
    Hist G cdk kh (fun _ => none) l d → Runs cdk (fun _ => True) l → m.cfg.Wf cdk →
    (initState G cdk kh m d).1 = G.upper m.cfg ∧ verState G cdk kh m d = G.ver (G.upper m.cfg)

/-- C67, in full: after any sequence of runs, crashes and deletions (of one recursion configuration) from an empty
directory, a run whose initialization succeeds finds the table circuits of all configured sizes. -/
def C67_statement : Prop :=
  ∀ (U T V : Type) (G : Gen U T V) (cdk : Bool) (kh : Str) (t : Bool) (l : List Ev) (d : Disk) (m : Mgr), Hex8 kh →
    Hist G cdk kh (fun _ => none) l d → Runs cdk (fun x => x.cfg.useTest = t) l → m.cfg.Wf cdk → m.cfg.useTest = t →
    ∀ c n, Configured cdk m.cfg c n →
      tableFor G cdk kh m (initState G cdk kh m d) (writeAll d (initPuts G cdk kh m d)) c n = some (G.tab t c n)

/-! ## Proofs -/

section
variable {U T V : Type} {G : Gen U T V} {cdk : Bool} {kh : Str}

/-- The complete contents of a file. -/
def content (G : Gen U T V) (cdk : Bool) (t : Bool) : Res → Bytes
  | .base g => G.cU.enc (G.upper g)
  | .mono g => G.cM.enc (G.upper g, tablesOf G cdk g)
  | .table c n => G.cT.enc (G.tab t c n)
  | .verifier g => G.cV.enc (G.ver (G.upper g))

/-- The resource is of the given recursion configuration. -/
def resFlag (t : Bool) : Res → Prop
  | .base g | .mono g | .verifier g => g.useTest = t
  | .table _ _ => True

theorem content_same {t : Bool} {r r' : Res} (h : r.Same r') (f : resFlag t r) (f' : resFlag t r') : content G cdk t r = content G cdk t r' := by
  have cfg : ∀ {g g' : Cfg}, g.ranges = g'.ranges → g.useTest = t → g'.useTest = t → g = g' := by
    intro g g' h1 h2 h3
    cases g; cases g'
    simp_all
  cases r <;> cases r' <;> simp only [Res.Same] at h
  · rw [cfg h f f']
  · rw [cfg h f f']
  · rw [h.1, h.2]
  · rw [cfg h f f']

/-- Every circuit file is a prefix of what it should be. -/
def Good (G : Gen U T V) (cdk : Bool) (kh : Str) (t : Bool) (d : Disk) : Prop :=
  ∀ r : Res, r.Wf cdk → resFlag t r → ∀ b, d (path cdk kh r) = some b → b <+: content G cdk t r

/-- The writes are complete files of resources of the given recursion configuration. -/
def PutsOk (G : Gen U T V) (cdk : Bool) (kh : Str) (t : Bool) (l : List (Str × Bytes)) : Prop :=
  ∀ x, x ∈ l → ∃ r : Res, r.Wf cdk ∧ resFlag t r ∧ x = (path cdk kh r, content G cdk t r)

theorem good_set {t : Bool} (hk : Hex8 kh) {d : Disk} (h : Good G cdk kh t d) {r : Res} (w : r.Wf cdk) (f : resFlag t r) {q : Bytes}
    (hq : q <+: content G cdk t r) : Good G cdk kh t (set d (path cdk kh r) q) := by
  intro r' w' f' b hb
  unfold set at hb
  split at hb
  · rename_i e
    cases hb
    rw [content_same (C65_paths_partial hk hk w' w e).2 f' f]
    exact hq
  · exact h r' w' f' b hb

theorem good_writeAll {t : Bool} (hk : Hex8 kh) : ∀ {l : List (Str × Bytes)} {d : Disk}, Good G cdk kh t d → PutsOk G cdk kh t l →
    Good G cdk kh t (writeAll d l)
  | [], _, h, _ => h
  | x :: l, d, h, hl => by
    obtain ⟨r, w, f, e⟩ := hl x (List.mem_cons_self ..)
    subst e
    exact good_writeAll (l := l) hk (good_set hk h w f (List.prefix_refl _)) (fun y hy => hl y (List.mem_cons_of_mem _ hy))

theorem good_crash {t : Bool} (hk : Hex8 kh) {l : List (Str × Bytes)} {d d' : Disk} (h : Good G cdk kh t d) (hl : PutsOk G cdk kh t l)
    (c : Crashed d l d') : Good G cdk kh t d' := by
  obtain ⟨done, rest, e, c⟩ := c
  have hd : Good G cdk kh t (writeAll d done) := good_writeAll hk h (fun x hx => hl x (by rw [e]; exact List.mem_append_left _ hx))
  rcases c with rfl | ⟨p, b, q, l', rfl, hq, rfl⟩
  · exact hd
  · obtain ⟨r, w, f, e'⟩ := hl (p, b) (by rw [e]; simp)
    simp only [Prod.mk.injEq] at e'
    rw [e'.1]
    exact good_set hk hd w f (e'.2 ▸ hq)

theorem mem_tablesOf {g : Cfg} {c : Circuit} {l : List (Nat × T)} (h : (c, l) ∈ tablesOf G cdk g) :
    ∀ y, y ∈ l → y.2 = G.tab g.useTest c y.1 := by
  obtain ⟨x, _, e⟩ := List.mem_map.1 h
  simp only [Prod.mk.injEq] at e
  intro y hy
  rw [← e.2] at hy
  obtain ⟨n, _, e'⟩ := List.mem_map.1 hy
  rw [← e', ← e.1]

theorem putsOk_all {t : Bool} {g : Cfg} (w : g.Wf cdk) (f : g.useTest = t) : PutsOk G cdk kh t (allPuts G cdk kh g) := by
  intro x hx
  simp only [allPuts, proverPuts, List.mem_append, List.mem_cons, List.not_mem_nil, or_false, List.mem_flatMap, List.mem_map] at hx
  rcases hx with ((rfl | rfl) | ⟨⟨c, l⟩, h1, y, h2, rfl⟩) | rfl
  · exact ⟨.base g, w, f, rfl⟩
  · exact ⟨.mono g, w, f, rfl⟩
  · refine ⟨.table c y.1, trivial, trivial, ?_⟩
    rw [mem_tablesOf h1 y h2, f]
    rfl
  · exact ⟨.verifier g, w, f, rfl⟩

theorem putsOk_init {t : Bool} {m : Mgr} {d : Disk} (w : m.cfg.Wf cdk) (f : m.cfg.useTest = t) :
    PutsOk G cdk kh t (initPuts G cdk kh m d) := by
  unfold initPuts
  split
  · intro x hx; cases hx
  · split
    · intro x hx; cases hx
    · exact putsOk_all w f

theorem putsOk_ver {t : Bool} {m : Mgr} {d : Disk} (w : m.cfg.Wf cdk) (f : m.cfg.useTest = t) :
    PutsOk G cdk kh t (verPuts G cdk kh m d) := by
  unfold verPuts
  split
  · intro x hx; cases hx
  · split
    · intro x hx; cases hx
    · intro x hx
      exact putsOk_all (kh := kh) w f x (List.mem_append_right _ hx)

theorem good_step {t : Bool} (hk : Hex8 kh) {d d' : Disk} {e : Ev} (h : Good G cdk kh t d) (s : Step G cdk kh d e d')
    (r : ∀ m, e.mgr = some m → m.cfg.Wf cdk ∧ m.cfg.useTest = t) : Good G cdk kh t d' := by
  cases s with
  | init m => exact good_writeAll hk h (putsOk_init (r m rfl).1 (r m rfl).2)
  | initCrash m _ _ c => exact good_crash hk h (putsOk_init (r m rfl).1 (r m rfl).2) c
  | verifier m => exact good_writeAll hk h (putsOk_ver (r m rfl).1 (r m rfl).2)
  | verifierCrash m _ _ c => exact good_crash hk h (putsOk_ver (r m rfl).1 (r m rfl).2) c
  | deleteAll _ _ h1 h2 =>
    intro x w f b hb
    by_cases hp : Deletable (path cdk kh x)
    · rw [h1 _ hp] at hb; cases hb
    · rw [h2 _ hp] at hb; exact h x w f b hb
  | deleteCrash _ _ h1 _ =>
    intro x w f b hb
    rcases h1 (path cdk kh x) with e | e
    · rw [e] at hb; cases hb
    · rw [e] at hb; exact h x w f b hb

theorem good_hist {t : Bool} (hk : Hex8 kh) {d d' : Disk} {l : List Ev} (h : Good G cdk kh t d) (s : Hist G cdk kh d l d')
    (r : Runs cdk (fun x => x.cfg.useTest = t) l) : Good G cdk kh t d' := by
  induction s with
  | nil => exact h
  | cons s _ ih =>
    exact ih (good_step hk h s (fun m hm => r _ (List.mem_cons_self ..) m hm)) (fun e he => r e (List.mem_cons_of_mem _ he))

theorem good_empty {t : Bool} : Good G cdk kh t (fun _ => none) := by
  intro r _ _ b hb
  cases hb

theorem get_good {α : Type} {c : Codec α} {d : Disk} {p : Str} {x y : α} (h : ∀ b, d p = some b → b <+: c.enc x)
    (g : get c d p = some y) : y = x := by
  unfold get at g
  obtain ⟨b, h1, h2⟩ := Option.bind_eq_some_iff.1 g
  by_cases e : b = c.enc x
  · rw [e, c.roundtrip] at h2
    exact (Option.some.inj h2).symm
  · rw [c.torn x b (h b h1) e] at h2
    cases h2

theorem lookup_zip_tables {g : Cfg} : ∀ {cs : List Circuit} {rs : List (Nat × Nat)}, cs.Nodup → ∀ {c r}, (c, r) ∈ cs.zip rs →
    (((cs.zip rs).map (fun x => (x.1, (List.range' x.2.1 (x.2.2 - x.2.1)).map (fun n => (n, G.tab g.useTest x.1 n))))).lookup c) =
      some ((List.range' r.1 (r.2 - r.1)).map (fun n => (n, G.tab g.useTest c n)))
  | [], _, _, c, r, h => by simp at h
  | c' :: cs, [], _, c, r, h => by simp at h
  | c' :: cs, r' :: rs, hn, c, r, h => by
    simp only [List.zip_cons_cons, List.mem_cons, Prod.mk.injEq] at h
    simp only [List.zip_cons_cons, List.map_cons]
    by_cases e : c = c'
    · subst e
      rcases h with ⟨_, rfl⟩ | h
      · simp
      · exact absurd (List.of_mem_zip h).1 (List.nodup_cons.1 hn).1
    · rcases h with ⟨e', _⟩ | h
      · exact absurd e' e
      · rw [List.lookup_cons, show (c == c') = false by simpa using e]
        exact lookup_zip_tables (List.nodup_cons.1 hn).2 h

theorem circuits_nodup (cdk : Bool) : (circuits cdk).Nodup := by
  cases cdk <;> decide

theorem lookup_map (f : Nat → T) : ∀ (l : List Nat) (n : Nat), n ∈ l → (l.map (fun n => (n, f n))).lookup n = some (f n)
  | [], _, h => by cases h
  | a :: l, n, h => by
    rw [List.map_cons, List.lookup_cons]
    by_cases e : n = a
    · subst e; simp
    · rw [show (n == a) = false by simpa using e]
      rcases List.mem_cons.1 h with h | h
      · exact absurd h e
      · exact lookup_map f l n h

theorem lookup_tables {g : Cfg} {c : Circuit} {n : Nat} (h : Configured cdk g c n) :
    ((tablesOf G cdk g).lookup c).bind (fun l => l.lookup n) = some (G.tab g.useTest c n) := by
  obtain ⟨r, h1, h2, h3⟩ := h
  unfold tablesOf
  rw [lookup_zip_tables (circuits_nodup cdk) h1]
  simp only [Option.bind_some]
  exact lookup_map (fun n => G.tab g.useTest c n) _ n (by rw [List.mem_range'_1]; omega)

/-- **C66 (partial: all runs use the same recursion configuration).** After any sequence of runs, crashes and deletions
from an empty directory, a run uses the upper circuits and the verifier data of its own configuration, and each table
circuit of a configured size it uses is the one its configuration generates. -/
theorem C66_cache_partial (hk : Hex8 kh) {t : Bool} {l : List Ev} {d : Disk} {m : Mgr} (hist : Hist G cdk kh (fun _ => none) l d)
    (runs : Runs cdk (fun x => x.cfg.useTest = t) l) (w : m.cfg.Wf cdk) (f : m.cfg.useTest = t) :
    (initState G cdk kh m d).1 = G.upper m.cfg ∧ verState G cdk kh m d = G.ver (G.upper m.cfg) ∧
      ∀ c n x, Configured cdk m.cfg c n →
        tableFor G cdk kh m (initState G cdk kh m d) (writeAll d (initPuts G cdk kh m d)) c n = some x → x = G.tab t c n := by
  have hg : Good G cdk kh t d := good_hist hk good_empty hist runs
  have hst : (initState G cdk kh m d).1 = G.upper m.cfg ∧
      (m.pers ≠ .onDemand → (initState G cdk kh m d).2 = tablesOf G cdk m.cfg) := by
    unfold initState
    cases hl : load G cdk kh m d with
    | none => exact ⟨rfl, fun _ => rfl⟩
    | some s =>
      unfold load at hl
      split at hl
      · cases hl
      · rename_i hp
        obtain ⟨u, hu, rfl⟩ := Option.map_eq_some_iff.1 hl
        exact ⟨get_good (hg (.base m.cfg) w f) hu, fun h => absurd hp h⟩
      · have := get_good (x := (G.upper m.cfg, tablesOf G cdk m.cfg)) (hg (.mono m.cfg) w f) hl
        subst this
        exact ⟨rfl, fun _ => rfl⟩
  refine ⟨hst.1, ?_, ?_⟩
  · unfold verState
    split
    · rfl
    · cases hl : get G.cV d (path cdk kh (.verifier m.cfg)) with
      | none => rfl
      | some s => exact get_good (hg (.verifier m.cfg) w f) hl
  · intro c n x hc hx
    unfold tableFor at hx
    split at hx
    · exact get_good (good_writeAll hk hg (putsOk_init w f) (.table c n) trivial trivial) hx
    · rename_i hp
      rw [hst.2 hp, lookup_tables hc, f] at hx
      exact (Option.some.inj hx).symm

/-! ### Completeness without crashes -/

/-- If the base circuits of a configuration are on disk, so are its complete table circuits. -/
def Complete (G : Gen U T V) (cdk : Bool) (kh : Str) (t : Bool) (d : Disk) : Prop :=
  ∀ g : Cfg, g.Wf cdk → g.useTest = t → (d (path cdk kh (.base g))).isSome →
    ∀ c n, Configured cdk g c n → d (path cdk kh (.table c n)) = some (content G cdk t (.table c n))

theorem writeAll_mem {l : List (Str × Bytes)} : ∀ {d : Disk} {p : Str} {b : Bytes}, (∀ x, x ∈ l → x.1 = p → x.2 = b) →
    (d p = some b ∨ ∃ x, x ∈ l ∧ x.1 = p) → writeAll d l p = some b := by
  induction l with
  | nil =>
    intro d p b _ h
    rcases h with h | ⟨x, hx, _⟩
    · exact h
    · cases hx
  | cons y l ih =>
    intro d p b hu h
    refine ih (d := set d y.1 y.2) (fun x hx => hu x (List.mem_cons_of_mem _ hx)) ?_
    by_cases e : y.1 = p
    · left
      unfold set
      rw [if_pos e.symm, hu y (List.mem_cons_self ..) e]
    · rcases h with h | ⟨x, hx, e'⟩
      · left
        unfold set
        rw [if_neg (Ne.symm e)]
        exact h
      · rcases List.mem_cons.1 hx with rfl | hx
        · exact absurd e' e
        · exact .inr ⟨x, hx, e'⟩

theorem writeAll_other {l : List (Str × Bytes)} : ∀ {d : Disk} {p : Str}, (∀ x, x ∈ l → x.1 ≠ p) → writeAll d l p = d p := by
  induction l with
  | nil => intro d p _; rfl
  | cons y l ih =>
    intro d p h
    refine (ih (d := set d y.1 y.2) (fun x hx => h x (List.mem_cons_of_mem _ hx))).trans ?_
    unfold set
    rw [if_neg (Ne.symm (h y (List.mem_cons_self ..)))]

theorem putsOk_unique {t : Bool} (hk : Hex8 kh) {l : List (Str × Bytes)} (hl : PutsOk G cdk kh t l) {r : Res} (w : r.Wf cdk)
    (f : resFlag t r) : ∀ x, x ∈ l → x.1 = path cdk kh r → x.2 = content G cdk t r := by
  intro x hx e
  obtain ⟨r', w', f', e'⟩ := hl x hx
  rw [e'] at e ⊢
  exact content_same (C65_paths_partial hk hk w' w e).2 f' f

theorem table_mem {g : Cfg} {c : Circuit} {n : Nat} (h : Configured cdk g c n) :
    ∃ x, x ∈ allPuts G cdk kh g ∧ x.1 = path cdk kh (.table c n) := by
  obtain ⟨r, h1, h2, h3⟩ := h
  refine ⟨(path cdk kh (.table c n), G.cT.enc (G.tab g.useTest c n)), ?_, rfl⟩
  unfold allPuts proverPuts
  refine List.mem_append_left _ (List.mem_append_right _ ?_)
  refine List.mem_flatMap.2 ⟨_, List.mem_map.2 ⟨(c, r), h1, rfl⟩, ?_⟩
  refine List.mem_map.2 ⟨(n, G.tab g.useTest c n), ?_, rfl⟩
  exact List.mem_map.2 ⟨n, by rw [List.mem_range'_1]; simp only; omega, rfl⟩

theorem complete_all {t : Bool} (hk : Hex8 kh) {d : Disk} (h : Complete G cdk kh t d) {g : Cfg} (w : g.Wf cdk) (f : g.useTest = t) :
    Complete G cdk kh t (writeAll d (allPuts G cdk kh g)) := by
  intro g' w' f' hb c n hc
  have uniq := putsOk_unique hk (putsOk_all (G := G) (kh := kh) w f) (r := .table c n) trivial trivial
  refine writeAll_mem uniq ?_
  by_cases e : g'.ranges = g.ranges
  · right
    have : Configured cdk g c n := by
      obtain ⟨r, h1, h2⟩ := hc
      exact ⟨r, e ▸ h1, h2⟩
    exact table_mem this
  · left
    refine h g' w' f' ?_ c n hc
    rw [writeAll_other] at hb
    · exact hb
    · intro x hx e'
      obtain ⟨r', wr, fr, er⟩ := putsOk_all (G := G) (kh := kh) w f x hx
      simp only [allPuts, proverPuts, List.mem_append, List.mem_cons, List.not_mem_nil, or_false, List.mem_flatMap, List.mem_map] at hx
      rcases hx with ((rfl | rfl) | ⟨⟨c, l⟩, h1, y, h2, rfl⟩) | rfl
      · exact e (C65_paths_partial hk hk (r := .base g) (r' := .base g') w w' e').2.symm
      · exact (C65_paths_partial hk hk (r := .mono g) (r' := .base g') w w' e').2
      · exact (C65_paths_partial hk hk (r := .table c y.1) (r' := .base g') trivial w' e').2
      · exact (C65_paths_partial hk hk (r := .verifier g) (r' := .base g') w w' e').2

theorem deletable_path (r : Res) : Deletable (path cdk kh r) := by
  cases r
  · exact .inl ⟨_, by simp only [path, List.append_assoc]; rfl⟩
  · exact .inl ⟨_, by simp only [path, List.append_assoc]; rfl⟩
  · exact .inl ⟨_, rfl⟩
  · exact .inr ⟨_, rfl⟩

theorem complete_ver {t : Bool} (hk : Hex8 kh) {d : Disk} (h : Complete G cdk kh t d) {g : Cfg} (w : g.Wf cdk) :
    Complete G cdk kh t (writeAll d [verifierPut G cdk kh g]) := by
  have other : ∀ r : Res, r.Wf cdk → ¬ Res.Same (.verifier g) r → writeAll d [verifierPut G cdk kh g] (path cdk kh r) = d (path cdk kh r) := by
    intro r wr hs
    refine writeAll_other ?_
    intro x hx e
    rcases List.mem_singleton.1 hx with rfl
    exact hs (C65_paths_partial hk hk (r := .verifier g) w wr e).2
  intro g' w' f' hb c n hc
  rw [other (.base g') w' (fun h => h)] at hb
  rw [other (.table c n) trivial (fun h => h)]
  exact h g' w' f' hb c n hc

theorem complete_hist {t : Bool} (hk : Hex8 kh) {d d' : Disk} {l : List Ev} (h : Complete G cdk kh t d) (s : Hist G cdk kh d l d')
    (r : Runs cdk (fun x => x.cfg.useTest = t) l) (nc : NoCrash l) : Complete G cdk kh t d' := by
  induction s with
  | nil => exact h
  | cons s _ ih =>
    refine ih ?_ (fun e he => r e (List.mem_cons_of_mem _ he)) (fun e he => nc e (List.mem_cons_of_mem _ he))
    have r := fun m hm => r _ (List.mem_cons_self ..) m hm
    have nc := nc _ (List.mem_cons_self ..)
    cases s with
    | init m =>
      unfold initPuts
      split
      · exact h
      · split
        · exact h
        · exact complete_all hk h (r m rfl).1 (r m rfl).2
    | verifier m =>
      unfold verPuts
      split
      · exact h
      · split
        · exact h
        · exact complete_ver hk h (r m rfl).1
    | initCrash m _ _ c => rcases nc with ⟨_, e⟩ | ⟨_, e⟩ | e <;> cases e
    | verifierCrash m _ _ c => rcases nc with ⟨_, e⟩ | ⟨_, e⟩ | e <;> cases e
    | deleteAll _ _ h1 _ =>
      intro g _ _ hb
      rw [h1 _ (deletable_path _)] at hb
      cases hb
    | deleteCrash _ _ _ _ => rcases nc with ⟨_, e⟩ | ⟨_, e⟩ | e <;> cases e

/-- **C67 (partial: no crashes).** After any sequence of completed runs and deletions of one recursion configuration,
every initialized run finds the table circuits of all configured sizes. -/
theorem C67_tables_partial (hk : Hex8 kh) {t : Bool} {l : List Ev} {d : Disk} {m : Mgr} (hist : Hist G cdk kh (fun _ => none) l d)
    (runs : Runs cdk (fun x => x.cfg.useTest = t) l) (nc : NoCrash l) (w : m.cfg.Wf cdk) (f : m.cfg.useTest = t) :
    ∀ c n, Configured cdk m.cfg c n →
      tableFor G cdk kh m (initState G cdk kh m d) (writeAll d (initPuts G cdk kh m d)) c n = some (G.tab t c n) := by
  intro c n hc
  have hcomp : Complete G cdk kh t d := complete_hist hk (fun g _ _ hb => by cases hb) hist runs nc
  have hg : Good G cdk kh t d := good_hist hk good_empty hist runs
  unfold tableFor
  split
  · rename_i hp
    have key : writeAll d (initPuts G cdk kh m d) (path cdk kh (.table c n)) = some (content G cdk t (.table c n)) := by
      unfold initPuts
      rw [if_neg (by rw [hp]; decide)]
      split
      · rename_i hs
        refine hcomp m.cfg w f ?_ c n hc
        unfold load at hs
        rw [hp] at hs
        simp only [Option.isSome_map] at hs
        unfold get at hs
        cases hd : d (path cdk kh (.base m.cfg)) with
        | none => rw [hd] at hs; cases hs
        | some b => rfl
      · exact writeAll_mem (putsOk_unique hk (putsOk_all w f) (r := .table c n) trivial trivial) (.inr (table_mem hc))
    unfold get
    rw [key]
    exact G.cT.roundtrip _
  · rename_i hp
    have : (initState G cdk kh m d).2 = tablesOf G cdk m.cfg := by
      unfold initState
      cases hl : load G cdk kh m d with
      | none => rfl
      | some s =>
        unfold load at hl
        split at hl
        · cases hl
        · rename_i hp'; exact absurd hp' hp
        · have := get_good (x := (G.upper m.cfg, tablesOf G cdk m.cfg)) (hg (.mono m.cfg) w f) hl
          rw [this]
          rfl
    rw [this, lookup_tables hc, f]

end

/-! ### Counterexamples -/

/-- A self-delimiting code. -/
structure Code (α : Type) where
  enc : α → Bytes
  inj : ∀ x y r s, enc x ++ r = enc y ++ s → x = y ∧ r = s

open Classical in
/-- The codec of a self-delimiting code. -/
noncomputable def Code.codec {α : Type} (c : Code α) : Codec α where
  enc := c.enc
  dec b := if h : ∃ x, c.enc x = b then some h.choose else none
  roundtrip x := by
    rw [dif_pos ⟨x, rfl⟩]
    have h : ∃ y, c.enc y = c.enc x := ⟨x, rfl⟩
    exact congrArg some (c.inj h.choose x [] [] (by rw [h.choose_spec])).1
  torn x p hp hn := by
    rw [dif_neg]
    rintro ⟨y, rfl⟩
    obtain ⟨s, e⟩ := hp
    exact hn (by rw [(c.inj y x s [] (by rw [e, List.append_nil])).1])

def boolCode : Code Bool where
  enc b := [if b then 1 else 0]
  inj x y r s h := by
    simp only [List.cons_append, List.nil_append, List.cons.injEq] at h
    refine ⟨?_, h.2⟩
    have := h.1
    cases x <;> cases y <;> first | rfl | (revert this; decide)

/-- A number `n` as `n` ones and a zero. -/
def natCode : Code Nat where
  enc n := List.replicate n 1 ++ [0]
  inj x y r s h := by
    induction x generalizing y with
    | zero =>
      cases y with
      | zero => simpa using h
      | succ y => simp [List.replicate_succ] at h
    | succ x ih =>
      cases y with
      | zero => simp [List.replicate_succ] at h
      | succ y =>
        simp only [List.replicate_succ, List.cons_append, List.cons.injEq, true_and] at h
        have := ih y h
        exact ⟨by rw [this.1], this.2⟩

def Circuit.idx : Circuit → Nat
  | .arithmetic => 0 | .bytePacking => 1 | .cpu => 2 | .keccak => 3 | .keccakSponge => 4 | .logic => 5 | .memory => 6
  | .memoryBefore => 7 | .memoryAfter => 8 | .poseidon => 9

def Code.map {α β : Type} (c : Code β) (f : α → β) (hf : ∀ x y, f x = f y → x = y) : Code α where
  enc x := c.enc (f x)
  inj x y r s h := ⟨hf x y (c.inj _ _ r s h).1, (c.inj _ _ r s h).2⟩

def pairCode {α β : Type} (a : Code α) (b : Code β) : Code (α × β) where
  enc x := a.enc x.1 ++ b.enc x.2
  inj x y r s h := by
    rw [List.append_assoc, List.append_assoc] at h
    obtain ⟨h1, h⟩ := a.inj _ _ _ _ h
    obtain ⟨h2, h⟩ := b.inj _ _ _ _ h
    exact ⟨Prod.ext h1 h2, h⟩

def encList {α : Type} (a : Code α) : List α → Bytes
  | [] => [0]
  | x :: l => 1 :: (a.enc x ++ encList a l)

def listCode {α : Type} (a : Code α) : Code (List α) where
  enc := encList a
  inj x y r s h := by
    induction x generalizing y with
    | nil =>
      cases y with
      | nil => simpa [encList] using h
      | cons b y => simp [encList] at h
    | cons b x ih =>
      cases y with
      | nil => simp [encList] at h
      | cons b' y =>
        simp only [encList, List.cons_append, List.cons.injEq, true_and, List.append_assoc] at h
        obtain ⟨h1, h⟩ := a.inj _ _ _ _ h
        obtain ⟨h2, h⟩ := ih _ h
        exact ⟨by rw [h1, h2], h⟩

def circuitCode : Code Circuit := natCode.map Circuit.idx (by intro x y; cases x <;> cases y <;> decide)

/-- Circuits that record what they were generated for. -/
noncomputable def demoGen : Gen (List (Nat × Nat) × Bool) (Bool × (Circuit × Nat)) (List (Nat × Nat) × Bool) where
  upper g := (g.ranges, g.useTest)
  tab t c n := (t, c, n)
  ver u := u
  cU := (pairCode (listCode (pairCode natCode natCode)) boolCode).codec
  cM := (pairCode (pairCode (listCode (pairCode natCode natCode)) boolCode)
    (listCode (pairCode circuitCode (listCode (pairCode natCode (pairCode boolCode (pairCode circuitCode natCode))))))).codec
  cT := (pairCode boolCode (pairCode circuitCode natCode)).codec
  cV := (pairCode (listCode (pairCode natCode natCode)) boolCode).codec

/-- A configuration with the default sizes. -/
def demoCfg (t : Bool) : Cfg := ⟨defaultRanges, t⟩

def demoKh : Str := ['0', 'f', '3', 'a', '9', 'c', '1', 'e']

theorem demo_hex : Hex8 demoKh := ⟨rfl, by decide⟩

theorem base_get {U T V : Type} (G : Gen U T V) {cdk : Bool} {kh : Str} (hk : Hex8 kh) {g : Cfg} (w : g.Wf cdk) (d : Disk) :
    writeAll d (allPuts G cdk kh g) (path cdk kh (.base g)) = some (G.cU.enc (G.upper g)) := by
  refine writeAll_mem (putsOk_unique hk (t := g.useTest) (putsOk_all w rfl) (r := .base g) w rfl) (.inr ?_)
  exact ⟨_, List.mem_append_left _ (List.mem_append_left _ (List.mem_cons_self ..)), rfl⟩

/-- **C66 is violated.** A run with the test configuration leaves circuits that a later run without it loads: the
later run uses the low-security circuits. -/
theorem C66_violated : ¬ C66_statement := by
  intro h
  have s : Hist demoGen false demoKh (fun _ => none) [.init ⟨demoCfg true, .onDemand⟩]
      (writeAll (fun _ => none) (initPuts demoGen false demoKh ⟨demoCfg true, .onDemand⟩ (fun _ => none))) :=
    .cons (.init _ _) (.nil _)
  have e : initPuts demoGen false demoKh ⟨demoCfg true, .onDemand⟩ (fun _ => none) = allPuts demoGen false demoKh (demoCfg true) := rfl
  rw [e] at s
  have := (h _ _ _ demoGen false demoKh _ _ ⟨demoCfg false, .onDemand⟩ demo_hex s
    (by intro e he m hm; rcases List.mem_singleton.1 he with rfl; cases hm; exact ⟨rfl, trivial⟩) rfl).1
  unfold initState load get at this
  have hb := base_get demoGen demo_hex (cdk := false) (g := demoCfg true) rfl (fun _ => none)
  have hp : path false demoKh (.base (demoCfg false)) = path false demoKh (.base (demoCfg true)) := rfl
  simp only [hp, hb, Option.bind_some, demoGen.cU.roundtrip, Option.map_some, Option.getD_some] at this
  revert this
  decide

/-- **C67 is violated.** If a run crashes after writing the base circuits and before the table circuits, every later
run that loads tables on demand initializes successfully but has no table circuits. -/
theorem C67_violated : ¬ C67_statement := by
  intro h
  let m : Mgr := ⟨demoCfg false, .onDemand⟩
  let d : Disk := set (fun _ => none) (path false demoKh (.base (demoCfg false))) (demoGen.cU.enc (demoGen.upper (demoCfg false)))
  have s : Hist demoGen false demoKh (fun _ => none) [.initCrash m] d := by
    refine .cons (.initCrash m _ _ ?_) (.nil _)
    refine ⟨[(path false demoKh (.base (demoCfg false)), demoGen.cU.enc (demoGen.upper (demoCfg false)))], _, rfl, .inl rfl⟩
  have := h _ _ _ demoGen false demoKh false _ d m demo_hex s
    (by intro e he m' hm; rcases List.mem_singleton.1 he with rfl; cases hm; exact ⟨rfl, rfl⟩) rfl rfl .arithmetic 16
    ⟨(16, 23), by decide, by decide, by decide⟩
  have hd : d (path false demoKh (.base m.cfg)) = some (demoGen.cU.enc (demoGen.upper (demoCfg false))) := by
    show (if _ = _ then _ else _) = _
    rw [if_pos rfl]
  have hl : load demoGen false demoKh m d = some (demoGen.upper (demoCfg false), []) := by
    show ((d (path false demoKh (.base m.cfg))).bind demoGen.cU.dec).map _ = _
    rw [hd, Option.bind_some, demoGen.cU.roundtrip]
    rfl
  have hi : initPuts demoGen false demoKh m d = [] := by
    unfold initPuts
    rw [hl]
    rfl
  rw [hi] at this
  have ht : d (path false demoKh (.table .arithmetic 16)) = none := by
    show (if _ = _ then _ else _) = _
    rw [if_neg]
    intro e
    exact (C65_paths_partial demo_hex demo_hex (cdk := false) (r := .table .arithmetic 16) (r' := .base (demoCfg false)) trivial rfl e).2
  have : get demoGen.cT d (path false demoKh (.table .arithmetic 16)) = some _ := this
  unfold get at this
  rw [ht] at this
  cases this

open Classical in
/-- The disk without circuit files. -/
noncomputable def wipe (d : Disk) : Disk := fun p => if Deletable p then none else d p

theorem step_wipe (d : Disk) : Step demoGen false demoKh d .deleteAll (wipe d) :=
  .deleteAll _ _ (fun _ hp => if_pos hp) (fun _ hp => if_neg hp)

/-- The hypotheses of `C66_cache_partial` and `C67_tables_partial` are met by a history of two runs and a deletion. -/
example : ∃ d, Hist demoGen false demoKh (fun _ => none)
      [.init ⟨demoCfg false, .monolithic⟩, .verifier ⟨demoCfg false, .onDemand⟩, .deleteAll, .verifier ⟨demoCfg false, .onDemand⟩] d ∧
    Runs false (fun x => x.cfg.useTest = false)
      [.init ⟨demoCfg false, .monolithic⟩, .verifier ⟨demoCfg false, .onDemand⟩, .deleteAll, .verifier ⟨demoCfg false, .onDemand⟩] ∧
    NoCrash [.init ⟨demoCfg false, .monolithic⟩, .verifier ⟨demoCfg false, .onDemand⟩, .deleteAll, .verifier ⟨demoCfg false, .onDemand⟩] ∧
    (demoCfg false).Wf false ∧ Configured false (demoCfg false) .memoryAfter 26 := by
  refine ⟨_, .cons (.init _ _) (.cons (.verifier _ _) (.cons (step_wipe _) (.cons (.verifier _ _) (.nil _)))), ?_, ?_, rfl,
    ⟨(7, 27), by decide, by decide, by decide⟩⟩
  · intro e he m hm
    simp only [List.mem_cons, List.not_mem_nil, or_false] at he
    rcases he with rfl | rfl | rfl | rfl <;> cases hm <;> exact ⟨rfl, rfl⟩
  · intro e he
    simp only [List.mem_cons, List.not_mem_nil, or_false] at he
    rcases he with rfl | rfl | rfl | rfl
    · exact .inl ⟨_, rfl⟩
    · exact .inr (.inl ⟨_, rfl⟩)
    · exact .inr (.inr rfl)
    · exact .inr (.inl ⟨_, rfl⟩)

end Verif.Zero.Cache
