import Verif.World.Type2
/-!
# Type2World: updates of a partial state (C61), and concrete cases
-/
namespace Verif.World
open Mpt (Bytes H256)
open Smt (Nd Db Smt)

variable {H : Nd → Smt.Key} {codeHash : Bytes → H256}

/-! ## C61: updates of a world made from a witness -/

/-- `K` is below a hashed-out subtree. -/
def World2.Hidden (w : World2) (K : Smt.Key) : Prop := ∃ q h, (q, h) ∈ w.hashedOut ∧ q <+: K.split

/-- `m1` is the map `m0` with the part the world knows replaced by what the world holds now. -/
structure Updated (H : Nd → Smt.Key) (w : World2) (m0 m1 : Smt.Key → U256) : Prop where
  hidden : ∀ K, w.Hidden K → m1 K = m0 K
  visible : ∀ K v, v ≠ 0 → ¬ w.Hidden K → (m1 K = v ↔ ∃ f : Field2, K = Smt.Keys.key H f.smt ∧ w.field f = some v)
  untouched : ∀ f, w.Stored f → ¬ w.Hidden (Smt.Keys.key H f.smt)

/-- The claim: after updates of the visible fields of a world made from a witness for the state `s0`, the world's root
is the root of the updated full state `s1`, if the world gives a root at all. -/
def C61_statement (H : Nd → Smt.Key) (codeHash : Bytes → H256) : Prop :=
  ∀ (o0 o1 : List Smt.Op) (s0 s1 : Smt) (w0 w1 : World2) (ops : List Op2),
    (∀ op, op ∈ o0 ++ o1 → op.key.Valid) → Smt.run H .empty o0 = .ok s0 → Smt.run H .empty o1 = .ok s1 →
    Smt.NoColl s0.db → Smt.NoColl s1.db → w0.Ok →
    Smt.Witness H (Smt.lastVal (fun _ => 0) o0) (w0.hashedOut.map (fun x => (x.1, keyOfH256 x.2))) (w0.entries H) →
    (∀ op, op ∈ ops → op.addr.length = 20) → Op2.runAll (type2 H codeHash) w0 ops = .ok w1 →
    Updated H w1 (Smt.lastVal (fun _ => 0) o0) (Smt.lastVal (fun _ => 0) o1) →
    w1.KeysOk H → w1.BuildsWithoutCollisions H → ∀ r, w1.root? H = some r → r = h256OfKey s1.root

/-- **C61**. What holds: the root is right, and it is computed without a panic, as long as above every hashed-out
subtree there are still two entries of the updated map below the node above it. -/
theorem C61_updates_partial {o0 o1 : List Smt.Op} {s1 : Smt} {w0 w1 : World2} {ops : List Op2}
    (hv : ∀ op, op ∈ o0 ++ o1 → op.key.Valid) (hr1 : Smt.run H .empty o1 = .ok s1) (hc1 : Smt.NoColl s1.db) (hok : w0.Ok)
    (hw : Smt.Witness H (Smt.lastVal (fun _ => 0) o0) (w0.hashedOut.map (fun x => (x.1, keyOfH256 x.2))) (w0.entries H))
    (ha : ∀ op, op ∈ ops → op.addr.length = 20) (hr : Op2.runAll (type2 H codeHash) w0 ops = .ok w1)
    (hu : Updated H w1 (Smt.lastVal (fun _ => 0) o0) (Smt.lastVal (fun _ => 0) o1))
    (hk : w1.KeysOk H) (hb : w1.BuildsWithoutCollisions H)
    (above : ∀ q h, (q, h) ∈ w1.hashedOut → q = [] ∨ ∃ K K', K ≠ K' ∧ Smt.lastVal (fun _ => 0) o1 K ≠ 0 ∧
      Smt.lastVal (fun _ => 0) o1 K' ≠ 0 ∧ q.dropLast <+: K.split ∧ q.dropLast <+: K'.split) :
    w1.root? H = some (h256OfKey s1.root) := by
  have hok1 := runAll_ok hok ha hr
  obtain ⟨w', e1, e2, -⟩ := C61_map (H := H) (codeHash := codeHash) ops w0
  rw [hr] at e1
  cases e1
  have hmem : ∀ {q : List Bool} {h : Smt.Key}, (q, h) ∈ w1.hashedOut.map (fun x => (x.1, keyOfH256 x.2)) ↔
      ∃ h', (q, h') ∈ w1.hashedOut ∧ h = keyOfH256 h' := by
    intro q h
    simp only [List.mem_map, Prod.mk.injEq, Prod.exists]
    constructor
    · rintro ⟨q', h', hm, rfl, rfl⟩; exact ⟨h', hm, rfl⟩
    · rintro ⟨h', hm, rfl⟩; exact ⟨q, h', hm, rfl, rfl⟩
  have hhid : ∀ K, (∀ q h, (q, h) ∈ w1.hashedOut.map (fun x => (x.1, keyOfH256 x.2)) → ¬ q <+: K.split) ↔ ¬ w1.Hidden K := by
    intro K
    constructor
    · rintro h ⟨q, h', hm, hp⟩; exact h q _ (hmem.2 ⟨h', hm, rfl⟩) hp
    · intro h q h' hm hp
      obtain ⟨h'', hm, -⟩ := hmem.1 hm
      exact h ⟨q, h'', hm, hp⟩
  rw [← e2] at hw
  refine root_of_witness (fun op hop => hv op (List.mem_append_right _ hop)) hr1 hc1 ?_ hb
  refine ⟨hw.apart, hw.short, fun q h hm => ?_, fun q h hm => ?_, fun K v hm => ?_, fun K v hm => ?_, entries_nodup hok1 hk, ?_⟩
  · obtain ⟨h', hm, -⟩ := hmem.1 hm
    exact above q h' hm
  · obtain ⟨L, l1, l2, l3, l4⟩ := hw.hash q h hm
    refine ⟨L, l1, l2, fun K v => ?_, l4⟩
    rw [l3]
    obtain ⟨h', hm', -⟩ := hmem.1 hm
    constructor
    · rintro ⟨a, b, c⟩; exact ⟨a, (hu.hidden K ⟨q, h', hm', c⟩).trans b, c⟩
    · rintro ⟨a, b, c⟩; exact ⟨a, (hu.hidden K ⟨q, h', hm', c⟩).symm.trans b, c⟩
  · obtain ⟨f, h1, h2⟩ := (mem_entries hok1).1 hm
    rw [h1]; exact hk.valid f (by unfold World2.Stored; rw [h2]; simp)
  · obtain ⟨f, h1, h2⟩ := (mem_entries hok1).1 hm
    rw [h1]
    exact (hhid _).2 (hu.untouched f (by unfold World2.Stored; rw [h2]; simp))
  · intro K v hv
    rw [mem_entries hok1, hhid]
    constructor
    · rintro ⟨f, h1, h2⟩
      have hn : ¬ w1.Hidden K := by
        rw [h1]; exact hu.untouched f (by unfold World2.Stored; rw [h2]; simp)
      exact ⟨(hu.visible K v hv hn).2 ⟨f, h1, h2⟩, hn⟩
    · rintro ⟨h1, h2⟩
      exact (hu.visible K v hv h2).1 h1

/-! ## Checking witnesses -/

/-- Executable check that hashes and entries are a witness for the entries `full`. -/
def witnessB (H : Nd → Smt.Key) (full : List (Smt.Key × U256)) (hs : List (List Bool × Smt.Key)) (es : List (Smt.Key × U256)) : Bool :=
  decide (hs.Pairwise (fun a b => ¬ a.1 <+: b.1 ∧ ¬ b.1 <+: a.1)) &&
  decide ((es.map Prod.fst).Nodup) && decide (full.Nodup) &&
  full.all (fun e => e.2 != 0 && (hs.any (fun x => decide (x.1 <+: e.1.split)) || decide (e ∈ es))) &&
  es.all (fun e => (e.2 == 0 || decide (e ∈ full)) && !hs.any (fun x => decide (x.1 <+: e.1.split)) &&
    decide (e.1.k0 < 2 ^ 64 ∧ e.1.k1 < 2 ^ 64 ∧ e.1.k2 < 2 ^ 64 ∧ e.1.k3 < 2 ^ 64)) &&
  hs.all (fun x => decide (x.1.length ≤ 256) && decide (full.filter (fun e => decide (x.1 <+: e.1.split)) ≠ []) &&
    decide (x.2 = Smt.merkle H (256 - x.1.length) x.1.length (full.filter (fun e => decide (x.1 <+: e.1.split)))) &&
    (decide (x.1 = []) || full.any (fun e => full.any (fun e' => decide (e.1 ≠ e'.1) &&
      decide (x.1.dropLast <+: e.1.split) && decide (x.1.dropLast <+: e'.1.split)))))

theorem witnessB_sound {m : Smt.Key → U256} {full : List (Smt.Key × U256)} {hs : List (List Bool × Smt.Key)}
    {es : List (Smt.Key × U256)} (hm : ∀ K v, v ≠ 0 → (m K = v ↔ (K, v) ∈ full)) (h : witnessB H full hs es = true) :
    Smt.Witness H m hs es := by
  simp only [witnessB, Bool.and_eq_true, decide_eq_true_eq, List.all_eq_true, Bool.or_eq_true, List.any_eq_true,
    bne_iff_ne, Bool.not_eq_true', beq_iff_eq] at h
  obtain ⟨⟨⟨⟨⟨h1, h2⟩, h3⟩, h4⟩, h5⟩, h6⟩ := h
  have hany : ∀ K : Smt.Key, (∀ q h, (q, h) ∈ hs → ¬ q <+: K.split) ↔ hs.any (fun x => decide (x.1 <+: K.split)) = false := by
    intro K
    rw [← Bool.not_eq_true, List.any_eq_true]
    simp only [Prod.exists, decide_eq_true_eq, not_exists, not_and]
  refine ⟨h1, fun q h hq => (h6 _ hq).1.1.1, fun q h hq => ?_, fun q h hq => ?_, fun K v he => (h5 _ he).2,
    fun K v he => (hany K).2 (h5 _ he).1.2, h2, fun K v hv => ?_⟩
  · rcases (h6 _ hq).2 with h | ⟨e, he, e', he', ⟨h7, h8⟩, h9⟩
    · exact .inl h
    · exact .inr ⟨e.1, e'.1, h7, by rw [(hm e.1 e.2 (h4 e he).1).2 he]; exact (h4 e he).1,
        by rw [(hm e'.1 e'.2 (h4 e' he').1).2 he']; exact (h4 e' he').1, h8, h9⟩
  · refine ⟨full.filter (fun e => decide (q <+: e.1.split)), (h6 _ hq).1.1.2, h3.sublist List.filter_sublist, fun K v => ?_,
      (h6 _ hq).1.2⟩
    rw [List.mem_filter, decide_eq_true_eq]
    constructor
    · rintro ⟨a, b⟩; exact ⟨(h4 _ a).1, (hm K v (h4 _ a).1).2 a, b⟩
    · rintro ⟨a, b, c⟩; exact ⟨(hm K v a).1 b, c⟩
  · rw [hany]
    constructor
    · intro he
      have := h5 _ he
      exact ⟨(hm K v hv).2 (this.1.1.resolve_left hv), this.1.2⟩
    · rintro ⟨a, b⟩
      rcases (h4 _ ((hm K v hv).1 a)).2 with ⟨x, hx, hp⟩ | h
      · exact absurd hp ((hany K).2 b x.1 x.2 hx)
      · exact h

/-- The map after setting each of a list of distinct keys once. -/
theorem lastVal_sets {full : List (Smt.Key × U256)} (hn : (full.map Prod.fst).Nodup) (K : Smt.Key) {v : U256} (hv : v ≠ 0) :
    Smt.lastVal (fun _ => 0) (full.map (fun e => .set e.1 e.2)) K = v ↔ (K, v) ∈ full := by
  have key : ∀ (l : List (Smt.Key × U256)) (m : Smt.Key → U256), (l.map Prod.fst).Nodup → (∀ k ∈ l.map Prod.fst, m k = 0) →
      (Smt.lastVal m (l.map (fun e => .set e.1 e.2)) K = v ↔ (K, v) ∈ l ∨ m K = v) := by
    intro l
    induction l with
    | nil => intro m _ _; simp [Smt.lastVal]
    | cons e l ih =>
      intro m hn hm
      obtain ⟨k, x⟩ := e
      rw [List.map_cons, List.nodup_cons] at hn
      have := ih (fun K => if K = k then x else m K) hn.2 (fun k' hk' => by
        have hne : k' ≠ k := fun h => hn.1 (by rw [← h]; exact hk')
        show (if k' = k then x else m k') = 0
        rw [if_neg hne]; exact hm k' (List.mem_cons_of_mem _ hk'))
      refine Iff.trans this ?_
      by_cases hK : K = k
      · subst hK
        simp only [if_true, List.mem_cons, Prod.mk.injEq, true_and]
        have h0 := hm K (by simp)
        constructor
        · rintro (h | h)
          · exact absurd (List.mem_map_of_mem (f := Prod.fst) h) hn.1
          · exact .inl (.inl h.symm)
        · rintro ((h | h) | h)
          · exact .inr h.symm
          · exact .inl h
          · exact absurd (h.symm.trans h0) hv
      · simp [hK]
  rw [key full _ hn (by simp)]
  constructor
  · rintro (h | h)
    · exact h
    · exact absurd h.symm hv
  · exact .inl

/-! ## C61: the claim fails if the last entry next to a hashed-out leaf is removed -/

def demoAddr : Addr := List.replicate 20 3
/-- The keys of the first slots, under the toy hash function: the paths of the even ones start with 0. -/
def demoKey (i : Nat) : Smt.Key := Smt.Keys.key Smt.toyH (Field2.slot demoAddr (BitVec.ofNat 256 i)).smt

/-- Slots 0 and 1 of an account; slot 0 is hashed out. -/
def lossFull : List (Smt.Key × U256) := [(demoKey 0, 5), (demoKey 1, 6)]
def lossWorld : World2 :=
  { accounts := [(demoAddr, { storage := [(1, 6)] })]
    hashedOut := [([false], h256OfKey (Smt.merkle Smt.toyH 255 1 [(demoKey 0, 5)]))] }

theorem prefix_one (K : Smt.Key) : [false] <+: K.split ↔ Smt.kbit K 0 = false := Smt.prefix_false K

theorem allPrefixes {w : World2} {n k : Nat} (hn : w.hashedOut.length < n) (hk : (w.entries Smt.toyH).length < k)
    (h : ∀ i, i < n → ∀ j, j < k → (match Smt.build Smt.toyH ((w.hashedOut.map (fun x => (x.1, keyOfH256 x.2))).take i)
      ((w.entries Smt.toyH).take j) with | .ok p => Smt.noCollB p.db | .error _ => true) = true) :
    w.BuildsWithoutCollisions Smt.toyH := by
  intro hs' es' h1 h2 p hp
  have l1 := h1.length_le
  have l2 := h2.length_le
  rw [List.length_map] at l1
  have := h hs'.length (by omega) es'.length (by omega)
  rw [← List.prefix_iff_eq_take.1 h1, ← List.prefix_iff_eq_take.1 h2, hp] at this
  exact Smt.noCollB_sound this

/-- The witness of the demo is right. -/
theorem lossWitness : Smt.Witness Smt.toyH (Smt.lastVal (fun _ => 0) (lossFull.map (fun e => .set e.1 e.2)))
    (lossWorld.hashedOut.map (fun x => (x.1, keyOfH256 x.2))) (lossWorld.entries Smt.toyH) :=
  witnessB_sound (full := lossFull) (fun K v hv => lastVal_sets (by decide +kernel) K hv) (by decide +kernel)

theorem lossOk : lossWorld.Ok where
  sorted := by decide
  addr := by decide
  slots := by
    intro a e h
    simp only [lossWorld, List.mem_singleton, Prod.mk.injEq] at h
    obtain ⟨-, rfl⟩ := h
    decide

/-- Executable check of `NoColl` on the database of a run. -/
theorem noColl_run {ops : List Smt.Op} {s : Smt} (hr : Smt.run Smt.toyH .empty ops = .ok s)
    (h : (match Smt.run Smt.toyH .empty ops with | .ok s => Smt.noCollB s.db | .error _ => true) = true) : Smt.NoColl s.db := by
  rw [hr] at h; exact Smt.noCollB_sound h

/-- **C61, negated.** Removing the entry next to a hashed-out leaf leaves a root that is not the root of the updated
state: the leaf should move up, but the world does not know it is a leaf. There is no panic and no error. -/
theorem C61_violated_sibling_of_hidden_leaf : ¬ C61_statement Smt.toyH codeHash := by
  intro h
  obtain ⟨w1, hr, hho, hf⟩ := C61_map (H := Smt.toyH) (codeHash := codeHash) [.unset demoAddr 1] lossWorld
  have hw1 : w1 = { lossWorld with accounts := [(demoAddr, {})] } := by
    have e : Op2.runAll (type2 Smt.toyH codeHash) lossWorld [.unset demoAddr 1] =
        .ok { lossWorld with accounts := [(demoAddr, {})] } := rfl
    rw [e] at hr; cases hr; rfl
  have hnone : ∀ f, w1.field f = none := by
    intro f
    have hg : ∀ a, w1.get a = {} := by
      intro a
      rw [hw1]
      unfold World2.get
      simp only [SMap.get]
      split <;> rfl
    cases f <;> simp only [World2.field, hg] <;> rfl
  have hst : ∀ f, ¬ w1.Stored f := fun f h => h (hnone f)
  obtain ⟨s0, hs0⟩ : ∃ s0, Smt.run Smt.toyH .empty (lossFull.map (fun e => .set e.1 e.2)) = .ok s0 := by
    have : (match Smt.run Smt.toyH .empty (lossFull.map (fun e => .set e.1 e.2)) with | .ok _ => true | .error _ => false) = true := by
      decide +kernel
    split at this
    · exact ⟨_, by assumption⟩
    · cases this
  obtain ⟨s1, hs1⟩ : ∃ s1, Smt.run Smt.toyH .empty [.set (demoKey 0) 5] = .ok s1 := by
    have : (match Smt.run Smt.toyH .empty [.set (demoKey 0) 5] with | .ok _ => true | .error _ => false) = true := by
      decide +kernel
    split at this
    · exact ⟨_, by assumption⟩
    · cases this
  have hhid : ∀ K, w1.Hidden K ↔ Smt.kbit K 0 = false := by
    intro K
    rw [← prefix_one]
    unfold World2.Hidden
    rw [hho]
    simp only [lossWorld, List.mem_singleton, Prod.mk.injEq]
    constructor
    · rintro ⟨q, h, ⟨rfl, -⟩, hp⟩; exact hp
    · intro hp; exact ⟨_, _, ⟨rfl, rfl⟩, hp⟩
  have hroot : (match w1.root? Smt.toyH with | some r => r != h256OfKey s1.root | none => false) = true := by
    have e : (match Smt.run Smt.toyH .empty [.set (demoKey 0) 5] with
      | .ok s => (match ({ lossWorld with accounts := [(demoAddr, {})] } : World2).root? Smt.toyH with
          | some r => r != h256OfKey s.root | none => false)
      | .error _ => false) = true := by decide +kernel
    rw [hs1] at e
    rw [hw1]; exact e
  have hL0 : ∀ K, Smt.lastVal (fun _ => 0) (lossFull.map (fun e => .set e.1 e.2)) K =
    if K = demoKey 1 then 6 else if K = demoKey 0 then 5 else 0 := fun K => rfl
  have hL1 : ∀ K, Smt.lastVal (fun _ => 0) [.set (demoKey 0) 5] K = if K = demoKey 0 then 5 else 0 := fun K => rfl
  cases hr1 : w1.root? Smt.toyH with
  | none => rw [hr1] at hroot; cases hroot
  | some r =>
    rw [hr1] at hroot
    have : r ≠ h256OfKey s1.root := by simpa using hroot
    refine this (h _ _ s0 s1 lossWorld w1 [.unset demoAddr 1] ?_ hs0 hs1 (noColl_run hs0 (by decide +kernel))
      (noColl_run hs1 (by decide +kernel)) lossOk lossWitness (by decide) hr ?_ ?_ ?_ r hr1)
    · intro op hop
      simp only [lossFull, List.map_cons, List.map_nil, List.cons_append, List.nil_append, List.mem_cons,
        List.not_mem_nil, or_false] at hop
      rcases hop with rfl | rfl | rfl <;> (simp only [Smt.Op.key, Smt.Key.Valid]; decide +kernel)
    · refine ⟨fun K hK => ?_, fun K v hv hK => ?_, fun f hf => absurd hf (hst f)⟩
      · rw [hL0, hL1, if_neg (c := K = demoKey 1)]
        rintro rfl
        exact absurd ((hhid _).1 hK) (by decide +kernel)
      · rw [hL1]
        constructor
        · intro he
          split at he
          · rename_i hk; subst hk
            exact absurd ((hhid _).2 (by decide +kernel)) hK
          · exact absurd he.symm hv
        · rintro ⟨f, -, hf⟩
          rw [hnone] at hf; cases hf
    · exact ⟨fun f g hf => absurd hf (hst f), fun f hf => absurd hf (hst f)⟩
    · rw [hw1]
      exact allPrefixes (n := 2) (k := 1) (by decide +kernel) (by decide +kernel) (by decide +kernel)

/-! ## Non-vacuity -/

/-- Slots 0 and 2 are hashed out, slots 1 and 3 are known. -/
def demoFull : List (Smt.Key × U256) := [(demoKey 0, 5), (demoKey 1, 6), (demoKey 2, 7), (demoKey 3, 8)]
def demoWorld : World2 :=
  { accounts := [(demoAddr, { storage := [(1, 6), (3, 8)] })]
    hashedOut := [([false], h256OfKey (Smt.merkle Smt.toyH 255 1 [(demoKey 0, 5), (demoKey 2, 7)]))] }

/-- A witness, and what an update and a removal make of it: the root is the root of the updated state. -/
example : Smt.Witness Smt.toyH (Smt.lastVal (fun _ => 0) (demoFull.map (fun e => .set e.1 e.2)))
      (demoWorld.hashedOut.map (fun x => (x.1, keyOfH256 x.2))) (demoWorld.entries Smt.toyH) ∧
    demoWorld.BuildsWithoutCollisions Smt.toyH ∧
    (match Op2.runAll (type2 Smt.toyH codeHash) demoWorld [.unset demoAddr 3, .store demoAddr 1 9],
        Smt.run Smt.toyH .empty ([(demoKey 0, 5), (demoKey 1, 9), (demoKey 2, 7)].map (fun e => .set e.1 e.2)) with
      | .ok w, .ok s => w.root? Smt.toyH == some (h256OfKey s.root) && Smt.noCollB s.db
      | _, _ => false) = true := by
  refine ⟨witnessB_sound (full := demoFull) (fun K v hv => lastVal_sets (by decide +kernel) K hv) (by decide +kernel),
    allPrefixes (n := 2) (k := 3) (by decide +kernel) (by decide +kernel) (by decide +kernel), ?_⟩
  have e : Op2.runAll (type2 Smt.toyH codeHash) demoWorld [.unset demoAddr 3, .store demoAddr 1 9] =
      .ok { demoWorld with accounts := [(demoAddr, { storage := [(1, 9)] })] } := rfl
  rw [e]
  decide +kernel

theorem mem_of_stored {w : World2} {f : Field2} (h : w.Stored f) : f ∈ w.accounts.flatMap (fun x => fieldList x.1 x.2) := by
  have key : ∃ e, SMap.get w.accounts f.addr = some e ∧ w.get f.addr = e := by
    cases hg : SMap.get w.accounts f.addr with
    | some e => exact ⟨e, rfl, by unfold World2.get; rw [hg]; rfl⟩
    | none =>
      have hd : w.get f.addr = {} := by unfold World2.get; rw [hg]; rfl
      refine absurd ?_ h
      cases f <;> (simp only [Field2.addr] at hd; simp only [World2.field, hd] <;> rfl)
  obtain ⟨e, h1, h2⟩ := key
  refine List.mem_flatMap.2 ⟨(f.addr, e), mem_of_get h1, ?_⟩
  simp only [fieldList, List.mem_append, List.mem_map, Option.mem_toList]
  unfold World2.Stored at h
  cases f with
  | balance a =>
    cases hb : e.balance with
    | none => simp only [World2.field, Field2.addr] at h h2; rw [h2] at h; exact absurd hb h
    | some v => exact .inl (.inl (.inl (.inl ⟨v, rfl, rfl⟩)))
  | nonce a =>
    cases hb : e.nonce with
    | none => simp only [World2.field, Field2.addr] at h h2; rw [h2] at h; exact absurd hb h
    | some v => exact .inl (.inl (.inl (.inr ⟨v, rfl, rfl⟩)))
  | codeHash a =>
    cases hb : e.codeHash with
    | none => simp only [World2.field, Field2.addr] at h h2; rw [h2] at h; exact absurd hb h
    | some v => exact .inl (.inl (.inr ⟨v, rfl, rfl⟩))
  | codeLength a =>
    cases hb : e.codeLength with
    | none => simp only [World2.field, Field2.addr] at h h2; rw [h2] at h; exact absurd hb h
    | some v => exact .inl (.inr ⟨v, rfl, rfl⟩)
  | slot a s =>
    simp only [World2.field, Field2.addr] at h h2
    rw [h2] at h
    cases hb : SMap.get e.storage s with
    | none => exact absurd hb h
    | some v => exact .inr ⟨(s, v), mem_of_get hb, rfl⟩

theorem keysOkB_sound {w : World2} (h : (w.accounts.flatMap (fun x => fieldList x.1 x.2)).all (fun f =>
      decide ((Smt.Keys.key Smt.toyH f.smt).k0 < 2 ^ 64 ∧ (Smt.Keys.key Smt.toyH f.smt).k1 < 2 ^ 64 ∧
        (Smt.Keys.key Smt.toyH f.smt).k2 < 2 ^ 64 ∧ (Smt.Keys.key Smt.toyH f.smt).k3 < 2 ^ 64) &&
      (w.accounts.flatMap (fun x => fieldList x.1 x.2)).all (fun g =>
        Smt.noCollB (Smt.Keys.hashed Smt.toyH f.smt ++ Smt.Keys.hashed Smt.toyH g.smt))) = true) : w.KeysOk Smt.toyH := by
  simp only [List.all_eq_true, Bool.and_eq_true, decide_eq_true_eq] at h
  exact ⟨fun f g hf hg => Smt.noCollB_sound ((h f (mem_of_stored hf)).2 g (mem_of_stored hg)), fun f hf => (h f (mem_of_stored hf)).1⟩

/-- The hypotheses of C61_root are met: two accounts with storage, one destroyed again, one slot erased. -/
example : ∃ w, Op2.runAll (type2 Smt.toyH (fun _ => ⟨List.replicate 32 1, rfl⟩)) {}
      [.balance demoAddr 5, .store demoAddr 1 9, .store demoAddr 2 8, .nonce (List.replicate 20 4) 1, .unset demoAddr 2,
        .code demoAddr (.inl [1, 2]), .store (List.replicate 20 9) 1 1, .destroy (List.replicate 20 9)] = .ok w ∧
    w.KeysOk Smt.toyH ∧ w.BuildsWithoutCollisions Smt.toyH := by
  refine ⟨_, rfl, keysOkB_sound (by decide +kernel), allPrefixes (n := 1) (k := 7) (by decide +kernel) (by decide +kernel) (by decide +kernel)⟩

end Verif.World
