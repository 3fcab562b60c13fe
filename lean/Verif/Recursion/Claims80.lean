import Verif.Recursion.Buffer

/-! # C80 and C84: preprocessed circuits survive being written to bytes, and a cut file is refused -/
namespace Verif.Recursion.Buffer

variable {B : Type} {K : Plonky B}

/-! ## Which values can be written -/

/-- Public value targets as the circuit builder makes them: caps of less than 2^64 hashes, a burn address exactly in builds that have one. -/
structure PVT.Usual (cdk : Bool) (pv : PVT K) : Prop where
  burn : pv.burn.isSome = cdk
  before : pv.memBefore.length < 2 ^ 64
  after : pv.memAfter.length < 2 ^ 64

structure Child.Fits (c : Child K) : Prop where
  agg : K.proofTarget.Fits c.agg
  base : K.proofTarget.Fits c.base

structure DummyChild.Fits (c : DummyChild K) : Prop where
  agg : K.proofTarget.Fits c.agg
  real : K.proofTarget.Fits c.real

structure PlonkWrapper.Fits (w : PlonkWrapper K) : Prop where
  common : K.common.Fits w.common
  prover : (K.proverOnly w.common).Fits w.proverOnly
  verifier : K.verifierOnly.Fits w.verifierOnly
  proof : K.proofTarget.Fits w.proofTarget

structure StarkWrapper.Fits (w : StarkWrapper K) : Prop where
  fri : K.friConfig.Fits w.fri
  circuit : K.circuitData.Fits w.circuit
  state : w.state.length < 2 ^ 64
  proof : K.starkProofTarget.Fits w.proofTarget
  ctl : K.ctlSet.Fits w.ctl

structure TableSize.Fits (t : TableSize K) : Prop where
  initial : t.initial.Fits
  length : t.shrinking.length < 2 ^ 64
  shrinking : ∀ w ∈ t.shrinking, w.Fits

/-- The entries are those of a map in key order. -/
structure Table.Fits (t : Table K) : Prop where
  length : t.length < 2 ^ 64
  sorted : t.Pairwise fun a b => a.1 < b.1
  keys : ∀ e ∈ t, e.1 < 2 ^ 64
  entries : ∀ e ∈ t, e.2.Fits

structure Shrunk.Fits (s : Shrunk K) : Prop where
  common : K.common.Fits s.common
  proof : (K.proof s.common).Fits s.proof

/-- All circuits as the builder makes them, so that plonky2 can write every part. -/
structure Circuits.Usual (cdk : Bool) {n : ℕ} (c : Circuits K n) : Prop where
  root : K.circuitData.Fits c.root.circuit ∧ (∀ i, K.proofTarget.Fits (c.root.proofs i)) ∧ c.root.pv.Usual cdk ∧ K.vkTarget.Fits c.root.vk
  segAgg : K.circuitData.Fits c.segAgg.circuit ∧ c.segAgg.lhs.Fits ∧ c.segAgg.rhs.Fits ∧ c.segAgg.pv.Usual cdk ∧ K.vkTarget.Fits c.segAgg.vk
  batchAgg : K.circuitData.Fits c.batchAgg.circuit ∧ c.batchAgg.lhs.Fits ∧ c.batchAgg.rhs.Fits ∧ c.batchAgg.pv.Usual cdk ∧
    K.vkTarget.Fits c.batchAgg.vk
  block : K.circuitData.Fits c.block.circuit ∧ K.proofTarget.Fits c.block.parent ∧ K.proofTarget.Fits c.block.agg ∧ c.block.pv.Usual cdk ∧
    K.vkTarget.Fits c.block.vk
  wrapper : K.circuitData.Fits c.wrapper.circuit ∧ K.proofTarget.Fits c.wrapper.parent ∧ K.vkTarget.Fits c.wrapper.vk
  two : K.circuitData.Fits c.two.circuit ∧ c.two.lhs.Fits ∧ c.two.rhs.Fits ∧ K.vkTarget.Fits c.two.vk
  tables : ∀ i, Table.Fits (c.tables i)
  dummies : ∀ i, ∀ s ∈ c.dummies i, s.Fits

/-- What a file that leaves out the tables can give back. -/
def Circuits.without {n : ℕ} (skip : Bool) (c : Circuits K n) : Circuits K n := bif skip then { c with tables := fun _ => [] } else c

/-- C80 in full: circuits written to bytes are read back. -/
def C80_statement : Prop :=
  ∀ (B : Type) (K : Plonky B) (cdk : Bool) (n : ℕ) (c : Circuits K n) (skip : Bool) (after : List B → List B), c.Usual cdk →
    Circuits.fromBytes cdk n skip after (c.toBytes skip) = some (c.without skip)

/-- The shrinking circuits of each table size have the same common data. -/
def Circuits.SameCommon {n : ℕ} (c : Circuits K n) : Prop :=
  ∀ i, ∀ e ∈ c.tables i, ∀ w ∈ e.2.shrinking, ∀ v ∈ e.2.shrinking, w.common = v.common

/-! ## Reading each piece -/

theorem reads_usize {n : ℕ} (h : n < 2 ^ 64) : Reads K.usize.read (K.usize.write n) n := K.usize.reads _ (K.usize_fits _ h)

theorem reads_roots (r : Roots K) : Reads Roots.fromBuffer r.toBuffer r :=
  (reads_T K _).bind ((reads_T K _).bind (reads_T K _).map)

theorem reads_metadata (m : Metadata K) : Reads Metadata.fromBuffer m.toBuffer m :=
  (reads_T K _).bind <| (reads_t K _).bind <| (reads_t K _).bind <| (reads_t K _).bind <| (reads_T K _).bind <| (reads_t K _).bind <|
  (reads_t K _).bind <| (reads_T K _).bind <| (reads_t K _).bind <| (reads_T K _).bind <| (reads_T K _).bind <| (reads_T K _).bind
  (reads_T K _).map

theorem reads_hashes (h : Hashes K) : Reads Hashes.fromBuffer h.toBuffer h := (reads_T K _).bind (reads_T K _).map

theorem reads_extra (e : Extra K) : Reads Extra.fromBuffer e.toBuffer e :=
  (reads_T K _).bind <| (reads_T K _).bind <| (reads_t K _).bind <| (reads_t K _).bind <| (reads_t K _).bind (reads_t K _).map

theorem reads_registers (r : Registers K) : Reads Registers.fromBuffer r.toBuffer r :=
  (reads_t K _).bind <| (reads_t K _).bind <| (reads_t K _).bind <| (reads_T K _).bind <| (reads_t K _).bind (reads_t K _).map

theorem reads_cap (c : List (Fin 4 → K.Target)) (h : c.length < 2 ^ 64) : Reads capFromBuffer (capToBuffer c) c :=
  (reads_usize h).bind (reads_list c fun _ _ => reads_T K _)

theorem reads_pv (pv : PVT K) (h : pv.Usual false) : Reads (PVT.fromBuffer false) pv.toBuffer pv := by
  have hb : pv.burn = none := by have := h.burn; rwa [Option.isSome_eq_false_iff, Option.isNone_iff_eq_none] at this
  obtain ⟨rb, ra, bn, md, hh, ex, gb, ga, mb, ma⟩ := pv
  cases hb
  refine (reads_roots _).bind <| (reads_roots _).bind ?_
  refine Reads.bind (x := []) (Reads.pure none) ?_
  exact (reads_metadata _).bind <| (reads_hashes _).bind <| (reads_extra _).bind <| (reads_registers _).bind <| (reads_registers _).bind <|
    (reads_cap _ h.before).bind (reads_cap _ h.after).map

theorem reads_final (pv : FinalPVT K) : Reads FinalPVT.fromBuffer pv.toBuffer pv :=
  (reads_t K _).bind <| (reads_T K _).bind <| (reads_T K _).bind <| (reads_T K _).bind (reads_T K _).map

theorem reads_child (c : Child K) (h : c.Fits) : Reads Child.fromBuffer c.toBuffer c :=
  (reads_b K _).bind <| (K.proofTarget.reads _ h.agg).bind (K.proofTarget.reads _ h.base).map

theorem reads_dummyChild (c : DummyChild K) (h : c.Fits) : Reads DummyChild.fromBuffer c.toBuffer c :=
  (reads_b K _).bind <| (reads_b K _).bind <| (K.proofTarget.reads _ h.agg).bind (K.proofTarget.reads _ h.real).map

theorem reads_shrunk (s : Shrunk K) (h : s.Fits) : Reads Shrunk.fromBuffer s.toBuffer s :=
  (K.common.reads _ h.common).bind ((K.proof s.common).reads _ h.proof).map

theorem reads_starkWrapper (w : StarkWrapper K) (h : w.Fits) : Reads StarkWrapper.fromBuffer w.toBuffer w :=
  (K.friConfig.reads _ h.fri).bind <| (K.circuitData.reads _ h.circuit).bind <| (reads_usize h.state).bind <|
  (reads_list _ fun _ _ => reads_t K _).bind <| (reads_t K _).bind <| (K.starkProofTarget.reads _ h.proof).bind (K.ctlSet.reads _ h.ctl).map

theorem reads_plonkWrapper (w : PlonkWrapper K) (h : w.Fits) : Reads (PlonkWrapper.fromBuffer w.common) w.toBuffer w :=
  ((K.proverOnly w.common).reads _ h.prover).bind <| (K.verifierOnly.reads _ h.verifier).bind (K.proofTarget.reads _ h.proof).map

theorem reads_tableSize (t : TableSize K) (h : t.Fits) (hc : ∀ w ∈ t.shrinking, ∀ v ∈ t.shrinking, w.common = v.common) :
    Reads TableSize.fromBuffer t.toBuffer t := by
  obtain ⟨ini, shr⟩ := t
  refine (reads_usize h.length).bind ?_
  cases shr with
  | nil => exact Reads.bind (x := []) (Reads.pure []) (reads_starkWrapper _ h.initial).map
  | cons w l =>
    show Reads _ (K.common.write w.common ++ ((w :: l).flatMap PlonkWrapper.toBuffer ++ ini.toBuffer)) _
    rw [← List.append_assoc]
    have : Reads (shrinkingFromBuffer (w :: l).length)
        (K.common.write w.common ++ (w :: l).flatMap PlonkWrapper.toBuffer) (w :: l) := by
      refine (K.common.reads _ (h.shrinking w (by simp)).common).bind (reads_list (w :: l) fun v hv => ?_)
      rw [hc w (by simp) v hv]
      exact reads_plonkWrapper v (h.shrinking v hv)
    exact this.bind (reads_starkWrapper _ h.initial).map

theorem mapInsert_append {α : Type} (k : ℕ) (v : α) : ∀ m : List (ℕ × α), (∀ e ∈ m, e.1 < k) → mapInsert k v m = m ++ [(k, v)]
  | [], _ => rfl
  | e :: m, h => by
    have := h e (by simp)
    rw [mapInsert, if_neg (by omega), if_neg (by omega), mapInsert_append k v m fun e' he => h e' (by simp [he])]
    rfl

theorem foldl_mapInsert {α : Type} : ∀ (t m : List (ℕ × α)), (m ++ t).Pairwise (fun a b => a.1 < b.1) →
    t.foldl (fun m e => mapInsert e.1 e.2 m) m = m ++ t
  | [], m, _ => by simp
  | e :: t, m, h => by
    have hm : ∀ e' ∈ m, e'.1 < e.1 := fun e' he => (List.pairwise_append.mp h).2.2 e' he e (by simp)
    rw [List.foldl_cons, mapInsert_append _ _ _ hm, foldl_mapInsert t _ (by rw [List.append_assoc]; exact h), List.append_assoc]
    rfl

theorem reads_table (t : Table K) (h : Table.Fits t) (hc : ∀ e ∈ t, ∀ w ∈ e.2.shrinking, ∀ v ∈ e.2.shrinking, w.common = v.common) :
    Reads Table.fromBuffer (Table.toBuffer t) t := by
  refine (reads_usize h.length).bind ?_
  have := (reads_list (rd := entryFromBuffer) (wr := fun e : ℕ × TableSize K => K.usize.write e.1 ++ e.2.toBuffer) t fun e he =>
    (reads_usize (h.keys e he)).bind (reads_tableSize e.2 (h.entries e he) (hc e he)).map).map
      (f := fun es => es.foldl (fun m e => mapInsert e.1 e.2 m) [])
  rwa [foldl_mapInsert t [] h.sorted, List.nil_append] at this

theorem reads_dummy (d : Option (Shrunk K)) (h : ∀ s ∈ d, s.Fits) : Reads dummyFromBuffer (dummyToBuffer d) d := by
  cases d with
  | none =>
    have := (K.bool.reads false (K.bool_fits _)).bind (k := fun b => if b then (do let s ← (Shrunk.fromBuffer : Rd B (Shrunk K)); pure (some s))
      else pure none) (Reads.pure none)
    rwa [List.append_nil] at this
  | some s => exact (K.bool.reads true (K.bool_fits _)).bind (reads_shrunk s (h s rfl)).map

/-- The dummy proofs come back although failures are not reported. -/
theorem dummies_back (after : List B → List B) : ∀ {n : ℕ} (d : Fin n → Option (Shrunk K)), (∀ i, ∀ s ∈ d i, s.Fits) → ∀ rest,
    readArr (dummyOrNone after) n (writeArr dummyToBuffer d ++ rest) = some (d, rest)
  | 0, d, _, rest => by
    have : d = Fin.elim0 := funext fun i => i.elim0
    rw [this]; rfl
  | n + 1, d, h, rest => by
    have e : writeArr dummyToBuffer d ++ rest = dummyToBuffer (d 0) ++ (writeArr dummyToBuffer (Fin.tail d) ++ rest) := by
      simp only [writeArr, List.ofFn_succ, List.flatMap_cons, List.append_assoc]; rfl
    have e1 : dummyOrNone after (dummyToBuffer (d 0) ++ (writeArr dummyToBuffer (Fin.tail d) ++ rest)) =
        some (d 0, writeArr dummyToBuffer (Fin.tail d) ++ rest) := by
      rw [dummyOrNone, (reads_dummy (d 0) (h 0)).back]
    rw [e]
    show (dummyOrNone after (dummyToBuffer (d 0) ++ (writeArr dummyToBuffer (Fin.tail d) ++ rest))).bind (fun p =>
      (readArr (dummyOrNone after) n p.2).bind fun q => some ((Fin.cons p.1 q.1 : Fin (n + 1) → Option (Shrunk K)), q.2)) = _
    rw [e1, Option.bind_some, dummies_back after (Fin.tail d) (fun i => h i.succ), Option.bind_some, Fin.cons_self_tail]

/-- Everything before the dummy proofs, and what is made of it. -/
def Circuits.mainRd (K : Plonky B) (cdk : Bool) (n : ℕ) (skip : Bool) : Rd B ((Fin n → Option (Shrunk K)) → Circuits K n) := do
  let root ← RootC.fromBuffer cdk n
  let segAgg ← SegAggC.fromBuffer cdk
  let batchAgg ← BatchAggC.fromBuffer cdk
  let block ← BlockC.fromBuffer cdk
  let wrapper ← WrapperC.fromBuffer
  let two ← TwoC.fromBuffer
  let tables ← bif skip then pure fun _ => [] else readArr Table.fromBuffer n
  pure fun dummies => { root, segAgg, batchAgg, block, wrapper, two, tables, dummies }

/-- The bytes before the dummy proofs. -/
def Circuits.mainBytes {n : ℕ} (skip : Bool) (c : Circuits K n) : List B :=
  c.root.toBuffer ++ (c.segAgg.toBuffer ++ (c.batchAgg.toBuffer ++ (c.block.toBuffer ++ (c.wrapper.toBuffer ++ (c.two.toBuffer ++
  (bif skip then [] else writeArr Table.toBuffer c.tables))))))

theorem toBytes_main {n : ℕ} (skip : Bool) (c : Circuits K n) : c.toBytes skip = c.mainBytes skip ++ writeArr dummyToBuffer c.dummies := by
  simp only [Circuits.toBytes, Circuits.mainBytes, List.append_assoc]

theorem fromBytes_main (cdk : Bool) (n : ℕ) (skip : Bool) (after : List B → List B) (bytes : List B) :
    Circuits.fromBytes (K := K) cdk n skip after bytes =
      (Circuits.mainRd K cdk n skip bytes).bind fun p => (readArr (dummyOrNone after) n p.2).map fun q => p.1 q.1 := by
  have : Circuits.fromBytes (K := K) cdk n skip after bytes =
      ((Circuits.mainRd K cdk n skip >>= fun f => do let d ← readArr (dummyOrNone after) n; pure (f d) : Rd B (Circuits K n)) bytes).map Prod.fst := by
    unfold Circuits.fromBytes Circuits.mainRd
    simp only [bind_assoc, pure_bind]
  rw [this]
  show ((Circuits.mainRd K cdk n skip bytes).bind fun p => (readArr (dummyOrNone after) n p.2).bind fun q => some (p.1 q.1, q.2)).map Prod.fst = _
  cases Circuits.mainRd K cdk n skip bytes with
  | none => rfl
  | some p => simp only [Option.bind_some]; cases readArr (dummyOrNone after) n p.2 <;> rfl

theorem reads_main {n : ℕ} (skip : Bool) (c : Circuits K n) (h : c.Usual false) (hc : skip = false → c.SameCommon) :
    Reads (Circuits.mainRd K false n skip) (c.mainBytes skip) (fun d => { c.without skip with dummies := d }) := by
  obtain ⟨⟨r1, r2, r3, r4⟩, ⟨s1, s2, s3, s4, s5⟩, ⟨b1, b2, b3, b4, b5⟩, ⟨k1, k2, k3, k4, k5⟩, ⟨w1, w2, w3⟩, ⟨t1, t2, t3, t4⟩, ht, _⟩ := h
  refine Reads.bind (a := c.root) ?_ <| Reads.bind (a := c.segAgg) ?_ <| Reads.bind (a := c.batchAgg) ?_ <| Reads.bind (a := c.block) ?_ <|
    Reads.bind (a := c.wrapper) ?_ <| Reads.bind (a := c.two) ?_ ?_
  · exact (K.circuitData.reads _ r1).bind <| (reads_arr _ fun i => K.proofTarget.reads _ (r2 i)).bind <| (reads_T K _).bind <|
      (reads_pv _ r3).bind <| (K.vkTarget.reads _ r4).bind (reads_arr _ fun i => reads_b K _).map
  · exact (K.circuitData.reads _ s1).bind <| (K.vkTarget.reads _ s5).bind <| (reads_pv _ s4).bind <| (reads_child _ s2).bind
      (reads_dummyChild _ s3).map
  · exact (K.circuitData.reads _ b1).bind <| (K.vkTarget.reads _ b5).bind <| (reads_pv _ b4).bind <| (reads_child _ b2).bind
      (reads_child _ b3).map
  · exact (K.circuitData.reads _ k1).bind <| (reads_b K _).bind <| (K.proofTarget.reads _ k2).bind <| (K.proofTarget.reads _ k3).bind <|
      (reads_pv _ k4).bind (K.vkTarget.reads _ k5).map
  · exact (K.circuitData.reads _ w1).bind <| (K.proofTarget.reads _ w2).bind <| (K.vkTarget.reads _ w3).bind (reads_final _).map
  · exact (K.circuitData.reads _ t1).bind <| (reads_child _ t2).bind <| (reads_child _ t3).bind (K.vkTarget.reads _ t4).map
  · cases skip
    · have : Reads (readArr Table.fromBuffer n) (writeArr Table.toBuffer c.tables) c.tables :=
        reads_arr c.tables fun i => reads_table _ (ht i) (hc rfl i)
      exact this.map
    · exact (Reads.pure _ : Reads (B := B) (pure fun _ => ([] : Table K)) [] fun _ : Fin n => []).map

/-- Builds without `cdk_erigon`: circuits are read back from their bytes, also with the tables if the shrinking circuits of a table size share
their common data. -/
theorem C80_read_back_partial {n : ℕ} (c : Circuits K n) (skip : Bool) (after : List B → List B) (h : c.Usual false)
    (hc : skip = false → c.SameCommon) : Circuits.fromBytes false n skip after (c.toBytes skip) = some (c.without skip) := by
  rw [fromBytes_main, toBytes_main, (reads_main skip c h hc).back, Option.bind_some]
  have := dummies_back after c.dummies h.dummies []
  rw [List.append_nil] at this
  simp only [this, Option.map_some]
  cases skip <;> rfl

/-! ## Where it fails -/

theorem bind_some_iff {α β : Type} {rd : Rd B α} {k : α → Rd B β} {bytes : List B} {r : β × List B} :
    (rd >>= k) bytes = some r ↔ ∃ a rest, rd bytes = some (a, rest) ∧ k a rest = some r := by
  show (rd bytes).bind (fun p => k p.1 p.2) = some r ↔ _
  rw [Option.bind_eq_some_iff]
  constructor
  · rintro ⟨⟨a, rest⟩, h⟩; exact ⟨a, rest, h⟩
  · rintro ⟨a, rest, h⟩; exact ⟨(a, rest), h⟩

theorem readList_all {α : Type} {rd : Rd B α} {p : α → Prop} (h : ∀ bytes a rest, rd bytes = some (a, rest) → p a) :
    ∀ (n : ℕ) (bytes : List B) (l : List α) (rest : List B), readList rd n bytes = some (l, rest) → ∀ a ∈ l, p a
  | 0, bytes, l, rest, e, a, ha => by
    cases e; simp at ha
  | n + 1, bytes, l, rest, e, a, ha => by
    obtain ⟨x, r1, e1, e2⟩ := bind_some_iff.mp e
    obtain ⟨v, r2, e3, e4⟩ := bind_some_iff.mp e2
    cases e4
    rcases List.mem_cons.mp ha with rfl | hv
    · exact h _ _ _ e1
    · exact readList_all h n _ _ _ e3 a hv

/-- Whatever the bytes: the shrinking circuits read for a table size all have the same common data. -/
theorem C80_read_same_common (bytes rest : List B) (t : TableSize K) (h : TableSize.fromBuffer bytes = some (t, rest)) :
    ∀ w ∈ t.shrinking, ∀ v ∈ t.shrinking, w.common = v.common := by
  obtain ⟨n, r1, _, e2⟩ := bind_some_iff.mp h
  obtain ⟨shr, r2, e3, e4⟩ := bind_some_iff.mp e2
  obtain ⟨ini, r3, _, e5⟩ := bind_some_iff.mp e4
  cases e5
  unfold shrinkingFromBuffer at e3
  split at e3
  · cases e3; intro w hw; simp at hw
  · obtain ⟨cm, r4, _, e6⟩ := bind_some_iff.mp e3
    have : ∀ w ∈ shr, w.common = cm := by
      refine readList_all (fun bytes a rest e => ?_) _ _ _ _ e6
      obtain ⟨_, _, _, e7⟩ := bind_some_iff.mp e
      obtain ⟨_, _, _, e8⟩ := bind_some_iff.mp e7
      obtain ⟨_, _, _, e9⟩ := bind_some_iff.mp e8
      cases e9; rfl
    intro w hw v hv
    rw [this w hw, this v hv]

/-- `RecursiveCircuitsForTableSize::new` (`fixed_recursive_verifier.rs:3123-3153`) asserts that each pass of the shrinking loop lowers the
degree. So a chain of two or more such circuits never comes back from a file, whatever the file. -/
theorem C80_violated_common (deg : K.Common → ℕ) (t : TableSize K) (hd : (t.shrinking.map fun w => deg w.common).Pairwise (· > ·))
    (hl : 2 ≤ t.shrinking.length) (bytes rest : List B) : TableSize.fromBuffer bytes ≠ some (t, rest) := by
  intro h
  have hs := C80_read_same_common bytes rest t h
  obtain ⟨ini, shr⟩ := t
  match shr, hl with
  | w :: v :: l, _ =>
    have := hs w (by simp) v (by simp)
    simp only [List.map_cons, List.pairwise_cons, List.mem_cons] at hd
    have := hd.1 (deg v.common) (Or.inl rfl)
    simp_all

/-! ## A small instance -/

/-- One number as one symbol. -/
def natCodec : Codec ℕ ℕ where
  write n := [n]
  read := fun | [] => none | n :: r => some (n, r)
  Fits _ := True
  reads n _ := ⟨fun _ => rfl, fun p s h hs => by
    cases p with
    | nil => rfl
    | cons x p => simp at h; exact absurd h.2.2 hs⟩

def boolCodec : Codec ℕ Bool where
  write b := [b.toNat]
  read := fun | 0 :: r => some (false, r) | 1 :: r => some (true, r) | _ => none
  Fits _ := True
  reads b _ := ⟨fun _ => by cases b <;> rfl, fun p s h hs => by
    cases p with
    | nil => rfl
    | cons x p => simp at h; exact absurd h.2.2 hs⟩

/-- A plonky2 in which everything is a number. -/
def tiny : Plonky ℕ where
  Target := ℕ
  target := natCodec
  target_fits _ := trivial
  BoolTarget := ℕ
  boolTarget := natCodec
  boolTarget_fits _ := trivial
  usize := natCodec
  usize_fits _ _ := trivial
  bool := boolCodec
  bool_fits _ := trivial
  ProofTarget := ℕ
  proofTarget := natCodec
  VkTarget := ℕ
  vkTarget := natCodec
  Common := ℕ
  common := natCodec
  ProverOnly := ℕ
  proverOnly _ := natCodec
  VerifierOnly := ℕ
  verifierOnly := natCodec
  Proof := ℕ
  proof _ := natCodec
  FriConfig := ℕ
  friConfig := natCodec
  CircuitData := ℕ
  circuitData := natCodec
  StarkProofTarget := ℕ
  starkProofTarget := natCodec
  CtlSet := ℕ
  ctlSet := natCodec

def tinyRoots : Roots tiny := ⟨fun i => i.val, fun i => i.val, fun i => i.val⟩

def tinyRegs : Registers tiny := ⟨(1 : ℕ), (2 : ℕ), (3 : ℕ), fun i => i.val, (4 : ℕ), (5 : ℕ)⟩

/-- Public value targets with the given burn address. -/
def tinyPV (burn : Option (Fin 8 → ℕ)) : PVT tiny where
  rootsBefore := tinyRoots
  rootsAfter := tinyRoots
  burn := burn
  metadata := ⟨fun i => i.val, (1 : ℕ), (2 : ℕ), (3 : ℕ), fun i => i.val, (4 : ℕ), (5 : ℕ), fun i => i.val, (6 : ℕ), fun i => i.val, fun i => i.val,
    fun i => i.val, fun i => i.val⟩
  hashes := ⟨fun i => i.val, fun i => i.val⟩
  extra := ⟨fun i => i.val, fun i => i.val, (1 : ℕ), (2 : ℕ), (3 : ℕ), (4 : ℕ)⟩
  regsBefore := tinyRegs
  regsAfter := tinyRegs
  memBefore := [fun i => i.val]
  memAfter := [fun i => i.val, fun _ => (9 : ℕ)]

theorem tinyPV_usual (burn : Option (Fin 8 → ℕ)) (cdk : Bool) (h : burn.isSome = cdk) : (tinyPV burn).Usual cdk :=
  ⟨h, by show 1 < 2 ^ 64; decide, by show 2 < 2 ^ 64; decide⟩

def tinyChild : Child tiny := ⟨(1 : ℕ), (2 : ℕ), (3 : ℕ)⟩

/-- Circuits for one table with two sizes; the first size has two shrinking circuits, with common data 7 and `common`. -/
def tinyCircuits (burn : Option (Fin 8 → ℕ)) (common : ℕ) : Circuits tiny 1 where
  root := ⟨(1 : ℕ), fun _ => (2 : ℕ), fun _ => (3 : ℕ), tinyPV burn, (4 : ℕ), fun _ => (5 : ℕ)⟩
  segAgg := ⟨(6 : ℕ), tinyChild, ⟨(1 : ℕ), (0 : ℕ), (2 : ℕ), (3 : ℕ)⟩, tinyPV burn, (7 : ℕ)⟩
  batchAgg := ⟨(8 : ℕ), tinyChild, tinyChild, tinyPV burn, (9 : ℕ)⟩
  block := ⟨(10 : ℕ), (11 : ℕ), (12 : ℕ), (13 : ℕ), tinyPV burn, (14 : ℕ)⟩
  wrapper := ⟨(15 : ℕ), (16 : ℕ), ⟨(17 : ℕ), fun i => i.val, fun i => i.val, fun i => i.val, fun i => i.val⟩, (18 : ℕ)⟩
  two := ⟨(19 : ℕ), tinyChild, tinyChild, (20 : ℕ)⟩
  tables := fun _ =>
    [(3, ⟨⟨(1 : ℕ), (2 : ℕ), (3 : ℕ), (4 : ℕ), [(5 : ℕ), (6 : ℕ)], (0 : ℕ)⟩, [⟨(7 : ℕ), (1 : ℕ), (2 : ℕ), (3 : ℕ)⟩, ⟨(common : ℕ), (1 : ℕ), (2 : ℕ), (3 : ℕ)⟩]⟩),
      (5, ⟨⟨(1 : ℕ), (2 : ℕ), (3 : ℕ), (4 : ℕ), [], (0 : ℕ)⟩, []⟩)]
  dummies := fun _ => some ⟨(8 : ℕ), (9 : ℕ)⟩

theorem tiny_usual (burn : Option (Fin 8 → ℕ)) (common : ℕ) (cdk : Bool) (h : burn.isSome = cdk) : (tinyCircuits burn common).Usual cdk where
  root := ⟨trivial, fun _ => trivial, tinyPV_usual burn cdk h, trivial⟩
  segAgg := ⟨trivial, ⟨trivial, trivial⟩, ⟨trivial, trivial⟩, tinyPV_usual burn cdk h, trivial⟩
  batchAgg := ⟨trivial, ⟨trivial, trivial⟩, ⟨trivial, trivial⟩, tinyPV_usual burn cdk h, trivial⟩
  block := ⟨trivial, trivial, trivial, tinyPV_usual burn cdk h, trivial⟩
  wrapper := ⟨trivial, trivial, trivial⟩
  two := ⟨trivial, ⟨trivial, trivial⟩, ⟨trivial, trivial⟩, trivial⟩
  tables i := by
    refine ⟨by show 2 < 2 ^ 64; decide, by simp [tinyCircuits], ?_, ?_⟩
    · simp [tinyCircuits]
    · simp only [tinyCircuits, List.mem_cons, List.not_mem_nil, or_false]
      rintro e (rfl | rfl)
      · refine ⟨⟨trivial, trivial, by show 2 < 2 ^ 64; decide, trivial, trivial⟩, by show 2 < 2 ^ 64; decide, ?_⟩
        intro w _
        exact ⟨trivial, trivial, trivial, trivial⟩
      · refine ⟨⟨trivial, trivial, by show 0 < 2 ^ 64; decide, trivial, trivial⟩, by show 0 < 2 ^ 64; decide, ?_⟩
        intro w _
        exact ⟨trivial, trivial, trivial, trivial⟩
  dummies i s _ := ⟨trivial, trivial⟩

theorem tiny_sameCommon (burn : Option (Fin 8 → ℕ)) : (tinyCircuits burn 7).SameCommon := by
  intro i e he w hw v hv
  simp only [tinyCircuits, List.mem_cons, List.not_mem_nil, or_false] at he
  rcases he with rfl | rfl
  · simp only [List.mem_cons, List.not_mem_nil, or_false] at hw hv
    rcases hw with rfl | rfl <;> rcases hv with rfl | rfl <;> rfl
  · simp at hw

example : (tinyCircuits none 7).Usual false ∧ (tinyCircuits none 7).SameCommon := ⟨tiny_usual none 7 false rfl, tiny_sameCommon none⟩

example : ∃ e ∈ (tinyCircuits none 6).tables 0, 2 ≤ e.2.shrinking.length ∧ (e.2.shrinking.map fun w => id w.common).Pairwise (fun a b : ℕ => a > b) :=
  ⟨_, List.mem_cons_self, Nat.le_refl 2, by simp [tinyCircuits]⟩

/-- With `cdk_erigon` the burn address is read but was never written: two sets of circuits with different burn addresses are written as the same
bytes, so at least one of them does not come back. -/
theorem C80_violated_burn : ∃ c c' : Circuits tiny 1, c.Usual true ∧ c'.Usual true ∧ c ≠ c' ∧ ∀ skip, c.toBytes skip = c'.toBytes skip := by
  refine ⟨tinyCircuits (some fun _ => 1) 7, tinyCircuits (some fun _ => 2) 7, tiny_usual _ _ _ rfl, tiny_usual _ _ _ rfl, ?_, fun skip => ?_⟩
  · intro h
    have := congrArg (fun c : Circuits tiny 1 => c.root.pv.burn) h
    have := congrFun (Option.some.inj (show (some fun _ => 1 : Option (Fin 8 → ℕ)) = some fun _ => 2 from this)) 0
    exact absurd this (by decide)
  · cases skip <;> rfl

theorem C80_violated : ¬ C80_statement := by
  intro H
  obtain ⟨c, c', hc, hc', hne, hb⟩ := C80_violated_burn
  have h1 := H ℕ tiny true 1 c false id hc
  have h2 := H ℕ tiny true 1 c' false id hc'
  rw [hb false, h2] at h1
  exact hne (Option.some.inj h1).symm

/-! ## C84: files that were cut -/

/-- C84 in full: bytes that lost their end are refused. -/
def C84_statement : Prop :=
  ∀ (B : Type) (K : Plonky B) (cdk : Bool) (n : ℕ) (c : Circuits K n) (skip : Bool) (after : List B → List B), c.Usual cdk →
    ∀ p s, c.toBytes skip = p ++ s → s ≠ [] → Circuits.fromBytes (K := K) cdk n skip after p = none

/-- Bytes cut anywhere before the dummy proofs are refused. -/
theorem C84_cut_refused_partial {n : ℕ} (c : Circuits K n) (skip : Bool) (after : List B → List B) (h : c.Usual false)
    (hc : skip = false → c.SameCommon) (p s : List B) (e : c.toBytes skip = p ++ s)
    (hs : (writeArr dummyToBuffer c.dummies).length < s.length) : Circuits.fromBytes (K := K) false n skip after p = none := by
  rw [toBytes_main] at e
  rcases List.append_eq_append_iff.mp e with ⟨t, rfl, e2⟩ | ⟨t, e1, rfl⟩
  · rw [e2, List.length_append] at hs; omega
  · have ht : t ≠ [] := by rintro rfl; simp at hs
    rw [fromBytes_main, (reads_main skip c h hc).whole p t e1 ht]
    rfl

theorem bool_read_nil : K.bool.read [] = none := by
  have ht := K.bool.reads true (K.bool_fits _)
  have hf := K.bool.reads false (K.bool_fits _)
  by_cases h : K.bool.write true = []
  · by_cases h' : K.bool.write false = []
    · have e1 := ht.back []
      have e2 := hf.back []
      rw [h] at e1
      rw [h', e1] at e2
      simp at e2
    · exact hf.whole [] _ rfl h'
  · exact ht.whole [] _ rfl h

/-- A file cut right before the dummy proofs is accepted, and all dummy proofs are missing from what is read. -/
theorem C84_violated_dummies {n : ℕ} (c : Circuits K n) (skip : Bool) (after : List B → List B) (ha : after [] = []) (h : c.Usual false)
    (hc : skip = false → c.SameCommon) : ∃ s, c.toBytes skip = c.mainBytes skip ++ s ∧
      Circuits.fromBytes false n skip after (c.mainBytes skip) = some { c.without skip with dummies := fun _ => none } := by
  refine ⟨_, toBytes_main skip c, ?_⟩
  have hm := (reads_main skip c h hc).back []
  rw [List.append_nil] at hm
  have hd : ∀ n, readArr (dummyOrNone (K := K) after) n [] = some ((fun _ => none), []) := by
    intro n
    induction n with
    | zero => exact congrArg some (Prod.ext (funext fun i => i.elim0) rfl)
    | succ n ih =>
      have e1 : dummyOrNone (K := K) after [] = some (none, []) := by
        have : (dummyFromBuffer : Rd B (Option (Shrunk K))) [] = none := by
          show (K.bool.read []).bind _ = none
          rw [bool_read_nil]; rfl
        rw [dummyOrNone, this, ha]
      show (dummyOrNone after []).bind (fun p =>
        (readArr (dummyOrNone after) n p.2).bind fun q => some ((Fin.cons p.1 q.1 : Fin (n + 1) → Option (Shrunk K)), q.2)) = _
      rw [e1, Option.bind_some, ih, Option.bind_some]
      congr 2
      funext i
      refine Fin.cases rfl (fun j => rfl) i
  rw [fromBytes_main, hm, Option.bind_some, hd, Option.map_some]

theorem C84_violated : ¬ C84_statement := by
  intro H
  obtain ⟨s, hs, hr⟩ := C84_violated_dummies (tinyCircuits none 7) false id rfl (tiny_usual none 7 false rfl) fun _ => tiny_sameCommon none
  have hne : s ≠ [] := by
    have : (tinyCircuits none 7).mainBytes false ++ s = (tinyCircuits none 7).mainBytes false ++ writeArr dummyToBuffer (tinyCircuits none 7).dummies := by
      rw [← hs, toBytes_main]
    rw [List.append_cancel_left this]
    exact List.cons_ne_nil _ _
  have := H ℕ tiny false 1 (tinyCircuits none 7) false id (tiny_usual none 7 false rfl) _ s hs hne
  rw [hr] at this
  cases this

end Verif.Recursion.Buffer
