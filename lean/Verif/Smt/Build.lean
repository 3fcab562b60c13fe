import Verif.Smt.Partial
/-!
# Building a partial sparse Merkle tree from hashes and entries (C57)
-/
namespace Verif.Smt

/-! ## Model -/

section
variable (H : Nd → Key)

/-- `for (key, hash) in &self.hashed_out { smt.set_hash(..) }`. `evm_arithmetization/src/world.rs:401-411`. -/
def setHashes : Smt → List (List Bool × Key) → Except Fault Smt
  | s, [] => .ok s
  | s, (q, h) :: hs =>
    match s.setHash H q h with
    | .ok s => setHashes s hs
    | .error f => .error f

/-- `Type2World::as_smt`, given the key of every entry: first all hashes, then all entries.
`evm_arithmetization/src/world.rs:398-443`. -/
def build (hs : List (List Bool × Key)) (es : List (Key × U256)) : Except Fault Smt :=
  match setHashes H .empty hs with
  | .ok s => run H s (es.map (fun e => .set e.1 e.2))
  | .error f => .error f

end

/-! ## Canonical trees are determined by their contents -/

theorem contents {t : T} : ∀ {p : List Bool}, t.WF p →
    (t ≠ .empty → (∃ K v, t.Mem K v) ∨ ∃ q h, t.HashAt q h) ∧
    (¬ t.Light → (∃ K v K' v', K ≠ K' ∧ t.Mem K v ∧ t.Mem K' v') ∨ ∃ q h, t.HashAt q h) := by
  induction t with
  | empty => intro p _; exact ⟨fun h => absurd rfl h, fun h => absurd trivial h⟩
  | leaf K v => intro p _; exact ⟨fun _ => .inl ⟨K, v, rfl, rfl⟩, fun h => absurd trivial h⟩
  | hash h => intro p _; exact ⟨fun _ => .inr ⟨[], h, rfl, rfl⟩, fun _ => .inr ⟨[], h, rfl, rfl⟩⟩
  | node l r ihl ihr =>
    intro p hw
    have il := ihl hw.2.1
    have ir := ihr hw.2.2.1
    have hL : (∃ q h, l.HashAt q h) → ∃ q h, (T.node l r).HashAt q h := fun ⟨q, h, hh⟩ => ⟨false :: q, h, hh⟩
    have hR : (∃ q h, r.HashAt q h) → ∃ q h, (T.node l r).HashAt q h := fun ⟨q, h, hh⟩ => ⟨true :: q, h, hh⟩
    have two : (∃ K v K' v', K ≠ K' ∧ (T.node l r).Mem K v ∧ (T.node l r).Mem K' v') ∨ ∃ q h, (T.node l r).HashAt q h := by
      by_cases hl : l = .empty
      · rcases ir.2 (fun h => hw.2.2.2.1 ⟨hl, h⟩) with ⟨K, v, K', v', h1, h2, h3⟩ | h
        · exact .inl ⟨K, v, K', v', h1, .inr h2, .inr h3⟩
        · exact .inr (hR h)
      · by_cases hr : r = .empty
        · rcases il.2 (fun h => hw.2.2.2.2 ⟨hr, h⟩) with ⟨K, v, K', v', h1, h2, h3⟩ | h
          · exact .inl ⟨K, v, K', v', h1, .inl h2, .inl h3⟩
          · exact .inr (hL h)
        · rcases il.1 hl with ⟨K, v, h1⟩ | h
          · rcases ir.1 hr with ⟨K', v', h2⟩ | h
            · refine .inl ⟨K, v, K', v', ?_, .inl h1, .inr h2⟩
              rintro rfl
              exact absurd (prefix_snoc_inj (mem_path hw.2.1 h1).1 (mem_path hw.2.2.1 h2).1) (by decide)
            · exact .inr (hR h)
          · exact .inr (hL h)
    refine ⟨fun _ => ?_, fun _ => two⟩
    rcases two with ⟨K, v, _, _, _, h, _⟩ | h
    · exact .inl ⟨K, v, h⟩
    · exact .inr h

theorem mem_left {l r : T} {p : List Bool} (hw : (T.node l r).WF p) {K : Key} {v : U256} :
    l.Mem K v ↔ (T.node l r).Mem K v ∧ p ++ [false] <+: K.split :=
  ⟨fun h => ⟨.inl h, (mem_path hw.2.1 h).1⟩, fun ⟨h, hp⟩ => h.elim id fun h =>
    absurd (prefix_snoc_inj hp (mem_path hw.2.2.1 h).1) (by decide)⟩

theorem mem_right {l r : T} {p : List Bool} (hw : (T.node l r).WF p) {K : Key} {v : U256} :
    r.Mem K v ↔ (T.node l r).Mem K v ∧ p ++ [true] <+: K.split :=
  ⟨fun h => ⟨.inr h, (mem_path hw.2.2.1 h).1⟩, fun ⟨h, hp⟩ => h.elim (fun h =>
    absurd (prefix_snoc_inj hp (mem_path hw.2.1 h).1) (by decide)) id⟩

/-- Canonical trees with the same entries and the same hashed-out subtrees are equal. -/
theorem tree_unique {t : T} : ∀ {p : List Bool} {t' : T}, t.WF p → t'.WF p → (∀ K v, t.Mem K v ↔ t'.Mem K v) →
    (∀ q h, t.HashAt q h ↔ t'.HashAt q h) → t = t' := by
  induction t with
  | empty =>
    intro p t' _ hw' hm hh
    apply Classical.byContradiction
    intro hne
    rcases (contents hw').1 (fun h => hne h.symm) with ⟨K, v, h⟩ | ⟨q, h, hq⟩
    · exact (hm K v).2 h
    · have := (hh q h).2 hq; simp [T.HashAt] at this
  | leaf K v =>
    intro p t' _ hw' hm hh
    cases t' with
    | empty => exact ((hm K v).1 ⟨rfl, rfl⟩).elim
    | leaf K' v' =>
      have := (hm K v).1 ⟨rfl, rfl⟩
      rw [this.1, this.2]
    | hash h => have := (hh [] h).2 ⟨rfl, rfl⟩; simp [T.HashAt] at this
    | node l r =>
      rcases (contents hw').2 id with ⟨K1, v1, K2, v2, hne, h1, h2⟩ | ⟨q, h, hq⟩
      · exact absurd (((hm _ _).2 h1).1.symm.trans ((hm _ _).2 h2).1) hne
      · have := (hh q h).2 hq; simp [T.HashAt] at this
  | hash h =>
    intro p t' _ _ _ hh
    have := (hh [] h).1 ⟨rfl, rfl⟩
    cases t' with
    | empty => simp [T.HashAt] at this
    | leaf K v => simp [T.HashAt] at this
    | node l r => simp [T.HashAt] at this
    | hash h' => rw [this.2]
  | node l r ihl ihr =>
    intro p t' hw hw' hm hh
    cases t' with
    | empty =>
      rcases (contents hw).2 id with ⟨K1, v1, K2, v2, hne, h1, h2⟩ | ⟨q, h, hq⟩
      · exact ((hm _ _).1 h1).elim
      · have := (hh q h).1 hq; simp [T.HashAt] at this
    | leaf K v =>
      rcases (contents hw).2 id with ⟨K1, v1, K2, v2, hne, h1, h2⟩ | ⟨q, h, hq⟩
      · exact absurd (((hm _ _).1 h1).1.symm.trans ((hm _ _).1 h2).1) hne
      · have := (hh q h).1 hq; simp [T.HashAt] at this
    | hash h => have := (hh [] h).2 ⟨rfl, rfl⟩; simp [T.HashAt] at this
    | node l' r' =>
      rw [ihl hw.2.1 hw'.2.1 (fun K v => by rw [mem_left hw, mem_left hw', hm]) (fun q h => hh (false :: q) h),
        ihr hw.2.2.1 hw'.2.2.1 (fun K v => by rw [mem_right hw, mem_right hw', hm]) (fun q h => hh (true :: q) h)]

section
variable {H : Nd → Key}

/-! ## `set_hash` -/

theorem hashLoop_spec {db : Db} (hc : NoColl db) (bits : List Bool) : ∀ (t : T) (ctx : Ctx) (st : Stack),
    (∀ K v, ¬ t.Mem K v) → WFc ctx → StoredC H db ctx → t.WF (path ctx) → Stored H db ctx.length t →
    (∀ q h, t.HashAt q h → ¬ q <+: bits ∧ ¬ bits <+: q) → Sib H ctx st → ctx.length + bits.length ≤ 256 →
    (∀ K v, ¬ MemC K v ctx) →
    ∃ c st', hashLoop db bits st (hashOf H ctx.length t) = .ok (st', .zero) ∧ Sib H c st' ∧ StoredC H db c ∧ WFc c ∧
      path c = path ctx ++ bits ∧ (∀ K v, ¬ MemC K v c) ∧
      ∀ q h, HashAtC q h c ↔ (∃ q', q = path ctx ++ q' ∧ t.HashAt q' h) ∨ HashAtC q h ctx := by
  induction bits with
  | nil =>
    intro t ctx st hm hwc hsc hw hs hq hsib hl hmc
    have ht : t = .empty := by
      apply Classical.byContradiction
      intro hne
      rcases (contents hw).1 hne with ⟨K, v, h⟩ | ⟨q, h, hh⟩
      · exact hm K v h
      · exact (hq q h hh).2 (List.nil_prefix)
    subst ht
    exact ⟨ctx, st, rfl, hsib, hsc, hwc, by simp, hmc, fun q h => by simp [T.HashAt]⟩
  | cons b bs ih =>
    intro t ctx st hm hwc hsc hw hs hq hsib hl hmc
    rw [List.length_cons] at hl
    have memC_cons : ∀ {s : T}, (∀ K v, ¬ s.Mem K v) → ∀ K v, ¬ MemC K v ((b, s) :: ctx) := by
      rintro s hsm K v ⟨e, he, hv⟩
      rcases List.mem_cons.1 he with rfl | he
      · exact hsm K v hv
      · exact hmc K v ⟨e, he, hv⟩
    cases t with
    | leaf K v => exact absurd ⟨rfl, rfl⟩ (hm K v)
    | hash h => exact absurd (List.nil_prefix) (hq [] h ⟨rfl, rfl⟩).1
    | empty =>
      rw [hashLoop]
      have hg : (db.get (hashOf H ctx.length .empty)) = none := hc.get_zero
      rw [hg]
      have := ih .empty ((b, .empty) :: ctx) ((b, ⟨.zero, .zero, .zero⟩) :: st) hm ⟨by omega, trivial, hwc⟩
        ⟨trivial, hsc⟩ trivial trivial (fun q h hh => by simp [T.HashAt] at hh)
        ⟨rfl, by cases b <;> rfl, rfl, hsib⟩ (by simp; omega) (memC_cons (by simp [T.Mem]))
      obtain ⟨c, st', e1, e2, e3, e4, e5, e6, e7⟩ := this
      refine ⟨c, st', ?_, e2, e3, e4, by simpa using e5, e6, ?_⟩
      · simp only [Option.getD_none]
        have : (Nd.mk Key.zero Key.zero Key.zero).isLeaf = false := rfl
        rw [this]
        rw [← e1]
        cases b <;> rfl
      · intro q h; rw [e7, HashAtC]; simp [T.HashAt]
    | node l r =>
      rw [hashLoop]
      have hg := hc.get hs.1
      have hg' : db.get (hashOf H ctx.length (.node l r)) = some ⟨hashOf H (ctx.length + 1) l, hashOf H (ctx.length + 1) r, .zero⟩ := hg
      rw [hg']
      simp only [Option.getD_some]
      have hleaf : (Nd.mk (hashOf H (ctx.length + 1) l) (hashOf H (ctx.length + 1) r) .zero).isLeaf = false := rfl
      rw [hleaf]
      simp only [Bool.false_eq_true, if_false]
      cases b with
      | false =>
        have := ih l ((false, r) :: ctx) ((false, ⟨hashOf H (ctx.length + 1) l, hashOf H (ctx.length + 1) r, .zero⟩) :: st)
          (fun K v h => hm K v (.inl h)) ⟨by omega, hw.2.2.1, hwc⟩ ⟨hs.2.2, hsc⟩ (by rw [path_cons]; exact hw.2.1) hs.2.1
          (fun q h hh => by
            have := hq (false :: q) h hh
            simpa [List.cons_prefix_cons] using this)
          ⟨rfl, rfl, rfl, hsib⟩ (by simp; omega) (memC_cons (fun K v h => hm K v (.inr h)))
        obtain ⟨c, st', e1, e2, e3, e4, e5, e6, e7⟩ := this
        refine ⟨c, st', e1, e2, e3, e4, by simpa using e5, e6, ?_⟩
        intro q h
        rw [e7, HashAtC, path_cons]
        constructor
        · rintro (⟨q', rfl, hh⟩ | ⟨q', rfl, hh⟩ | hh)
          · exact .inl ⟨false :: q', by simp, hh⟩
          · exact .inl ⟨true :: q', rfl, hh⟩
          · exact .inr hh
        · rintro (⟨q', rfl, hh⟩ | hh)
          · match q', hh with
            | [], hh => simp [T.HashAt] at hh
            | false :: q', hh => exact .inl ⟨q', by simp, hh⟩
            | true :: q', hh => exact .inr (.inl ⟨q', rfl, hh⟩)
          · exact .inr (.inr hh)
      | true =>
        have := ih r ((true, l) :: ctx) ((true, ⟨hashOf H (ctx.length + 1) l, hashOf H (ctx.length + 1) r, .zero⟩) :: st)
          (fun K v h => hm K v (.inr h)) ⟨by omega, hw.2.1, hwc⟩ ⟨hs.2.1, hsc⟩ (by rw [path_cons]; exact hw.2.2.1) hs.2.2
          (fun q h hh => by
            have := hq (true :: q) h hh
            simpa [List.cons_prefix_cons] using this)
          ⟨rfl, rfl, rfl, hsib⟩ (by simp; omega) (memC_cons (fun K v h => hm K v (.inl h)))
        obtain ⟨c, st', e1, e2, e3, e4, e5, e6, e7⟩ := this
        refine ⟨c, st', e1, e2, e3, e4, by simpa using e5, e6, ?_⟩
        intro q h
        rw [e7, HashAtC, path_cons]
        constructor
        · rintro (⟨q', rfl, hh⟩ | ⟨q', rfl, hh⟩ | hh)
          · exact .inl ⟨true :: q', by simp, hh⟩
          · exact .inl ⟨false :: q', rfl, hh⟩
          · exact .inr hh
        · rintro (⟨q', rfl, hh⟩ | hh)
          · match q', hh with
            | [], hh => simp [T.HashAt] at hh
            | true :: q', hh => exact .inl ⟨q', by simp, hh⟩
            | false :: q', hh => exact .inr (.inl ⟨q', rfl, hh⟩)
          · exact .inr (.inr hh)

/-- `set_hash` on a tree of hashes only, at a position that is not above or below another one. -/
theorem setHash_spec {s : Smt} {t : T} (hc : NoColl s.db) (hi : Inv H s t) (hm : ∀ K v, ¬ t.Mem K v) {q : List Bool}
    {h : Key} (hlen : q.length ≤ 256) (h0 : h ≠ .zero) (hq : ∀ q' h', t.HashAt q' h' → ¬ q' <+: q ∧ ¬ q <+: q') :
    ∃ s' t', s.setHash H q h = .ok s' ∧ Inv H s' t' ∧ (∀ K v, ¬ t'.Mem K v) ∧ (∀ e, e ∈ s.db → e ∈ s'.db) ∧
      ∀ q' h', t'.HashAt q' h' ↔ (q' = q ∧ h' = h) ∨ t.HashAt q' h' := by
  obtain ⟨c, st, e1, e2, e3, e4, e5, e6, e7⟩ := hashLoop_spec (H := H) hc q t [] [] hm trivial trivial hi.wf hi.stored hq
    trivial (by simpa using hlen) (by rintro K v ⟨e, he, -⟩; cases he)
  obtain ⟨db', f1, f2, f3⟩ := place_finish (H := H) (u := .hash h) (root := s.root) e2 e3 trivial
  have hmem : ∀ K v, ¬ (plug c (.hash h)).Mem K v := by
    intro K v hv
    rcases mem_plug.1 hv with hv | hv
    · exact hv
    · exact e6 K v hv
  have e1' : hashLoop s.db q [] s.root = .ok (st, .zero) := by rw [hi.root]; exact e1
  refine ⟨{ s with db := db', root := hashOf H 0 (plug c (.hash h)) }, plug c (.hash h), ?_, ⟨rfl, f3, ?_, ?_⟩, hmem, f2, ?_⟩
  · unfold Smt.setHash
    rw [e1']
    simp only [if_true]
    have f1' : finish H s.db (place st s.root h).1 (place st s.root h).2 = (db', hashOf H 0 (plug c (.hash h))) := f1
    rw [f1']
  · rw [wf_plug]
    refine ⟨e4, h0, ?_⟩
    cases c with
    | nil => trivial
    | cons e c => exact ⟨fun h => h.2, fun h => by cases h.1⟩
  · intro K v
    refine ⟨fun hk => absurd ((hi.kv K v).1 hk) (hm K v), fun hv => absurd hv (hmem K v)⟩
  · intro q' h'
    rw [hashAt_plug, e7, e5]
    simp only [path_nil, List.nil_append, T.HashAt]
    constructor
    · rintro (⟨a, rfl, rfl, rfl⟩ | ⟨q'', rfl, hh⟩ | hh)
      · exact .inl ⟨by simp, rfl⟩
      · exact .inr hh
      · exact hh.elim
    · rintro (⟨rfl, rfl⟩ | hh)
      · exact .inl ⟨[], by simp, rfl, rfl⟩
      · exact .inr (.inl ⟨q', rfl, hh⟩)

theorem setHash_sub {s s' : Smt} {q : List Bool} {h : Key} (hr : s.setHash H q h = .ok s') : s.db <:+ s'.db := by
  unfold Smt.setHash at hr
  split at hr
  · cases hr
  · split at hr
    · cases hr; exact finish_sub _ _ _
    · cases hr

theorem setHashes_sub {s s' : Smt} {hs : List (List Bool × Key)} (hr : setHashes H s hs = .ok s') : s.db <:+ s'.db := by
  induction hs generalizing s with
  | nil => cases hr; exact List.suffix_refl _
  | cons e hs ih =>
    obtain ⟨q, h⟩ := e
    rw [setHashes] at hr
    split at hr
    · rename_i s1 h1; exact (setHash_sub h1).trans (ih hr)
    · cases hr

/-- Neither position is above or at the other. -/
def Incomparable (q q' : List Bool) : Prop := ¬ q <+: q' ∧ ¬ q' <+: q

theorem setHashes_spec {hs : List (List Bool × Key)} : ∀ {s : Smt} {t : T}, Inv H s t → (∀ K v, ¬ t.Mem K v) →
    (∀ e, e ∈ hs → e.1.length ≤ 256 ∧ e.2 ≠ .zero) → hs.Pairwise (fun a b => Incomparable a.1 b.1) →
    (∀ q h, t.HashAt q h → ∀ e, e ∈ hs → Incomparable q e.1) →
    (∀ hs', hs' <+: hs → ∀ s', setHashes H s hs' = .ok s' → NoColl s'.db) →
    ∃ s' t', setHashes H s hs = .ok s' ∧ Inv H s' t' ∧ (∀ K v, ¬ t'.Mem K v) ∧
      ∀ q h, t'.HashAt q h ↔ (q, h) ∈ hs ∨ t.HashAt q h := by
  induction hs with
  | nil => intro s t hi hm _ _ _ _; exact ⟨s, t, rfl, hi, hm, fun q h => by simp⟩
  | cons e hs ih =>
    intro s t hi hm he hp hq hc
    obtain ⟨q, h⟩ := e
    rw [List.pairwise_cons] at hp
    have h1 := he (q, h) List.mem_cons_self
    obtain ⟨s1, t1, e1, e2, e3, -, e5⟩ := setHash_spec (H := H) (hc [] List.nil_prefix s rfl) hi hm h1.1 h1.2
      (fun q' h' hh => hq q' h' hh (q, h) List.mem_cons_self)
    obtain ⟨s2, t2, f1, f2, f3, f4⟩ := ih e2 e3 (fun e h => he e (List.mem_cons_of_mem _ h)) hp.2 (by
      intro q' h' hh e he'
      rcases (e5 q' h').1 hh with ⟨rfl, rfl⟩ | hh
      · exact hp.1 e he'
      · exact hq q' h' hh e (List.mem_cons_of_mem _ he')) (by
      intro hs' hpre s' hr
      refine hc ((q, h) :: hs') (List.cons_prefix_cons.2 ⟨rfl, hpre⟩) s' ?_
      rw [setHashes, e1]; exact hr)
    refine ⟨s2, t2, by rw [setHashes, e1]; exact f1, f2, f3, ?_⟩
    intro q' h'
    rw [f4, e5, List.mem_cons, Prod.mk.injEq]
    constructor
    · rintro (h | h | h)
      · exact .inl (.inr h)
      · exact .inl (.inl h)
      · exact .inr h
    · rintro ((h | h) | h)
      · exact .inr (.inl h)
      · exact .inl h
      · exact .inr (.inr h)

theorem run_sets {es : List (Key × U256)} : ∀ {s : Smt} {t : T}, Inv H s t →
    (∀ e, e ∈ es → e.1.Valid ∧ (∀ q h, t.HashAt q h → ¬ q <+: e.1.split) ∧ ∀ w, ¬ t.Mem e.1 w) →
    (es.map Prod.fst).Nodup →
    (∀ es', es' <+: es → ∀ s', run H s (es'.map (fun e => .set e.1 e.2)) = .ok s' → NoColl s'.db) →
    ∃ s' t', run H s (es.map (fun e => .set e.1 e.2)) = .ok s' ∧ Inv H s' t' ∧ (∀ q h, t'.HashAt q h ↔ t.HashAt q h) ∧
      ∀ K v, t'.Mem K v ↔ (v ≠ 0 ∧ (K, v) ∈ es) ∨ t.Mem K v := by
  induction es with
  | nil => intro s t hi _ _ _; exact ⟨s, t, rfl, hi, fun _ _ => Iff.rfl, fun K v => by simp⟩
  | cons e es ih =>
    intro s t hi he hn hc
    obtain ⟨K, v⟩ := e
    rw [List.map_cons, List.nodup_cons] at hn
    have h1 := he (K, v) List.mem_cons_self
    have hno : ∀ q h, t.HashAt q h → ¬ (q <+: K.split ∨ (v = 0 ∧ (∃ w, t.Mem K w) ∧ q ≠ [] ∧ q.dropLast <+: K.split)) := by
      rintro q h hh (h' | ⟨-, ⟨w, hw⟩, -⟩)
      · exact h1.2.1 q h hh h'
      · exact h1.2.2 w hw
    rcases set_spec' (H := H) (hc [] List.nil_prefix s rfl) hi h1.1 v (fun q h hh h' => absurd h' (hno q h hh)) with
      ⟨s1, t1, e1, e2, -, e4, e5⟩ | ⟨-, q, h, hh, h'⟩
    · obtain ⟨s2, t2, f1, f2, f3, f4⟩ := ih e2 (by
        intro e' he'
        have h2 := he e' (List.mem_cons_of_mem _ he')
        refine ⟨h2.1, fun q h hh => h2.2.1 q h ((e4 q h).1 hh), fun w hw => ?_⟩
        rw [e5] at hw
        have : ¬ e'.1 = K := fun hk => hn.1 (List.mem_map.2 ⟨e', he', hk⟩)
        rw [if_neg this] at hw
        exact h2.2.2 w hw) hn.2 (by
        intro es' hpre s' hr
        refine hc ((K, v) :: es') (List.cons_prefix_cons.2 ⟨rfl, hpre⟩) s' ?_
        rw [List.map_cons, run, e1]; exact hr)
      refine ⟨s2, t2, by rw [List.map_cons, run, e1]; exact f1, f2, fun q h => (f3 q h).trans (e4 q h), ?_⟩
      intro K' v'
      rw [f4, e5, List.mem_cons, Prod.mk.injEq]
      by_cases hk : K' = K
      · subst hk
        have hnot : (K', v') ∉ es := fun h => hn.1 (List.mem_map.2 ⟨_, h, rfl⟩)
        simp only [hnot, if_true, and_false, false_or, true_and, or_false, h1.2.2 v']
        constructor
        · rintro ⟨h, rfl⟩; exact ⟨h, rfl⟩
        · rintro ⟨h, rfl⟩; exact ⟨h, rfl⟩
      · simp only [hk, if_false, false_and, false_or]
    · exact absurd h' (hno q h hh)

/-- The state built from hashes and entries is that of the canonical tree with these contents. -/
theorem build_spec {hs : List (List Bool × Key)} {es : List (Key × U256)}
    (hhs : ∀ e, e ∈ hs → e.1.length ≤ 256 ∧ e.2 ≠ .zero) (hp : hs.Pairwise (fun a b => Incomparable a.1 b.1))
    (hes : ∀ e, e ∈ es → e.1.Valid ∧ ∀ x, x ∈ hs → ¬ x.1 <+: e.1.split) (hn : (es.map Prod.fst).Nodup)
    (hc : ∀ hs' es', hs' <+: hs → es' <+: es → ∀ s, build H hs' es' = .ok s → NoColl s.db) :
    ∃ s t, build H hs es = .ok s ∧ Inv H s t ∧ (∀ q h, t.HashAt q h ↔ (q, h) ∈ hs) ∧
      ∀ K v, t.Mem K v ↔ v ≠ 0 ∧ (K, v) ∈ es := by
  obtain ⟨s1, t1, e1, e2, e3, e4⟩ := setHashes_spec (H := H) Inv.empty (by simp [T.Mem]) hhs hp
    (fun q h hh => by simp [T.HashAt] at hh) (by
      intro hs' hpre s' hr
      refine hc hs' [] hpre List.nil_prefix s' ?_
      rw [build, hr]; rfl)
  have e4' : ∀ q h, t1.HashAt q h ↔ (q, h) ∈ hs := fun q h => by rw [e4]; simp [T.HashAt]
  obtain ⟨s2, t2, f1, f2, f3, f4⟩ := run_sets (H := H) e2 (es := es) (by
      intro e he
      have := hes e he
      exact ⟨this.1, fun q h hh => this.2 _ ((e4' q h).1 hh), e3 _⟩) hn (by
      intro es' hpre s' hr
      refine hc hs es' (List.prefix_refl _) hpre s' ?_
      rw [build, e1]; exact hr)
  refine ⟨s2, t2, by rw [build, e1]; exact f1, f2, fun q h => (f3 q h).trans (e4' q h), ?_⟩
  intro K v
  rw [f4]
  exact or_iff_left (e3 K v)

/-! ## Hiding subtrees of a full tree -/

/-- The subtree at a path. -/
def T.at : T → List Bool → Option T
  | t, [] => some t
  | .node l _, false :: q => l.at q
  | .node _ r, true :: q => r.at q
  | _, _ :: _ => none

theorem at_spec {q : List Bool} : ∀ {t : T} {p : List Bool}, t.WF p → (∀ h, ¬ t.HashIn h) →
    (∃ K v, t.Mem K v ∧ p ++ q <+: K.split) →
    (q = [] ∨ ∃ K v K' v', K ≠ K' ∧ t.Mem K v ∧ t.Mem K' v' ∧ p ++ q.dropLast <+: K.split ∧ p ++ q.dropLast <+: K'.split) →
    ∃ u, t.at q = some u ∧ u.WF (p ++ q) ∧ (∀ h, ¬ u.HashIn h) ∧ ∀ K v, u.Mem K v ↔ t.Mem K v ∧ p ++ q <+: K.split := by
  induction q with
  | nil =>
    intro t p hw hf _ _
    exact ⟨t, by cases t <;> rfl, by simpa using hw, hf, fun K v => by
      rw [List.append_nil]; exact ⟨fun h => ⟨h, (mem_path hw h).1⟩, fun h => h.1⟩⟩
  | cons b q ih =>
    intro t p hw hf ⟨K0, v0, hm0, hp0⟩ htwo
    rcases htwo with h | ⟨K, v, K', v', hne, hm, hm', hp, hp'⟩
    · cases h
    cases t with
    | empty => exact hm.elim
    | leaf K2 v2 => exact absurd (hm.1.symm.trans hm'.1) hne
    | hash h => exact absurd rfl (hf h)
    | node l r =>
      have e : ∀ x : List Bool, p ++ b :: x = (p ++ [b]) ++ x := fun x => by simp
      have step : ∀ (c : T), c.WF (p ++ [b]) → (∀ h, ¬ c.HashIn h) →
          (∀ {K v}, c.Mem K v ↔ (T.node l r).Mem K v ∧ p ++ [b] <+: K.split) →
          ∃ u, c.at q = some u ∧ u.WF ((p ++ [b]) ++ q) ∧ (∀ h, ¬ u.HashIn h) ∧
            ∀ K v, u.Mem K v ↔ (T.node l r).Mem K v ∧ (p ++ [b]) ++ q <+: K.split := by
        intro c hwc hfc hmc
        obtain ⟨u, e1, e2, e3, e4⟩ := ih (t := c) (p := p ++ [b]) hwc hfc
          ⟨K0, v0, hmc.2 ⟨hm0, (List.prefix_append _ q).trans (by rw [← e]; exact hp0)⟩, by rw [← e]; exact hp0⟩ (by
            cases q with
            | nil => exact .inl rfl
            | cons b' q' =>
              right
              rw [List.dropLast_cons_of_ne_nil (by simp), e] at hp hp'
              exact ⟨K, v, K', v', hne, hmc.2 ⟨hm, (List.prefix_append _ _).trans hp⟩,
                hmc.2 ⟨hm', (List.prefix_append _ _).trans hp'⟩, hp, hp'⟩)
        refine ⟨u, e1, e2, e3, fun K v => ?_⟩
        rw [e4, hmc]
        exact ⟨fun ⟨⟨a, _⟩, c⟩ => ⟨a, c⟩, fun ⟨a, c⟩ => ⟨⟨a, (List.prefix_append _ _).trans c⟩, c⟩⟩
      rw [e]
      cases b with
      | false => exact step l hw.2.1 (fun h hh => hf h (.inl hh)) (mem_left hw)
      | true => exact step r hw.2.2.1 (fun h hh => hf h (.inr hh)) (mem_right hw)

/-- Replacing subtrees of a full tree by their hashes. -/
theorem hide_exists {db : Db} (hc : NoColl db) {hs : List (List Bool × Key)}
    (hpf : ∀ a b, a ∈ hs → b ∈ hs → a.1 <+: b.1 → a = b) (F : T) : ∀ (p : List Bool), F.WF p → (∀ h, ¬ F.HashIn h) →
    Stored H db p.length F →
    (∀ q h, (p ++ q, h) ∈ hs → ∃ u, F.at q = some u ∧ u ≠ .empty ∧ h = hashOf H (p ++ q).length u) →
    ∃ W, W.WF p ∧ hashOf H p.length W = hashOf H p.length F ∧ (W = .empty ↔ F = .empty) ∧ (W.Light → F.Light) ∧
      (∀ q h, W.HashAt q h ↔ (p ++ q, h) ∈ hs) ∧
      ∀ K v, W.Mem K v ↔ F.Mem K v ∧ ∀ q h, (p ++ q, h) ∈ hs → ¬ p ++ q <+: K.split := by
  induction F with
  | hash h => intro p _ hf; exact absurd rfl (hf h)
  | empty =>
    intro p hw hf hst hat
    have hno : ∀ q h, (p ++ q, h) ∉ hs := by
      intro q h hm
      obtain ⟨u, h1, h2, -⟩ := hat q h hm
      cases q with
      | nil => rw [T.at] at h1; cases h1; exact h2 rfl
      | cons b q => cases b <;> cases h1
    exact ⟨.empty, trivial, rfl, Iff.rfl, id, fun q h => by simp [T.HashAt, hno], fun K v => by simp [T.Mem]⟩
  | leaf K v =>
    intro p hw hf hst hat
    by_cases hx : ∃ h, (p, h) ∈ hs
    · obtain ⟨h, hx⟩ := hx
      obtain ⟨u, h1, h2, h3⟩ := hat [] h (by simpa using hx)
      cases h1
      rw [List.append_nil] at h3
      refine ⟨.hash h, ?_, h3, by simp, fun h => h.elim, ?_, ?_⟩
      · show h ≠ .zero
        rw [h3]; exact hashOf_ne hc hst hw h2
      · intro q h'
        simp only [T.HashAt]
        constructor
        · rintro ⟨rfl, rfl⟩; simpa using hx
        · intro hm
          have := hpf _ _ hx hm (List.prefix_append _ _)
          rw [Prod.mk.injEq] at this
          exact ⟨by simpa using this.1.symm, this.2⟩
      · intro K' v'
        refine ⟨fun h => h.elim, fun ⟨hm, hn⟩ => ?_⟩
        obtain ⟨rfl, rfl⟩ := hm
        exact absurd (by rw [List.append_nil]; exact hw.2.2) (hn [] h (by simpa using hx))
    · have hno : ∀ q h, (p ++ q, h) ∉ hs := by
        intro q h hm
        obtain ⟨u, h1, h2, -⟩ := hat q h hm
        cases q with
        | nil => exact hx ⟨h, by simpa using hm⟩
        | cons b q => cases b <;> cases h1
      exact ⟨.leaf K v, hw, rfl, Iff.rfl, id, fun q h => by simp [T.HashAt, hno], fun K v => by simp [hno]⟩
  | node l r ihl ihr =>
    intro p hw hf hst hat
    by_cases hx : ∃ h, (p, h) ∈ hs
    · obtain ⟨h, hx⟩ := hx
      obtain ⟨u, h1, h2, h3⟩ := hat [] h (by simpa using hx)
      cases h1
      rw [List.append_nil] at h3
      refine ⟨.hash h, ?_, h3, by simp, fun h => h.elim, ?_, ?_⟩
      · show h ≠ .zero
        rw [h3]; exact hashOf_ne hc hst hw h2
      · intro q h'
        simp only [T.HashAt]
        constructor
        · rintro ⟨rfl, rfl⟩; simpa using hx
        · intro hm
          have := hpf _ _ hx hm (List.prefix_append _ _)
          rw [Prod.mk.injEq] at this
          exact ⟨by simpa using this.1.symm, this.2⟩
      · intro K' v'
        refine ⟨fun h => h.elim, fun ⟨hm, hn⟩ => ?_⟩
        exact absurd (by rw [List.append_nil]; exact (mem_path hw hm).1) (hn [] h (by simpa using hx))
    · have e : ∀ b x, p ++ b :: x = (p ++ [b]) ++ x := fun b x => by simp
      have el : ∀ b, (p ++ [b]).length = p.length + 1 := fun b => by simp
      obtain ⟨W1, a1, a2, a3, a4, a5, a6⟩ := ihl (p ++ [false]) hw.2.1 (fun h hh => hf h (.inl hh)) (by rw [el]; exact hst.2.1)
        (fun q h hm => by
          rw [← e] at hm ⊢
          exact hat (false :: q) h hm)
      obtain ⟨W2, b1, b2, b3, b4, b5, b6⟩ := ihr (p ++ [true]) hw.2.2.1 (fun h hh => hf h (.inr hh)) (by rw [el]; exact hst.2.2)
        (fun q h hm => by
          rw [← e] at hm ⊢
          exact hat (true :: q) h hm)
      rw [el] at a2 b2
      refine ⟨.node W1 W2, ⟨hw.1, a1, b1, fun h => hw.2.2.2.1 ⟨a3.1 h.1, b4 h.2⟩, fun h => hw.2.2.2.2 ⟨b3.1 h.1, a4 h.2⟩⟩,
        by simp only [hashOf, a2, b2], by simp, fun h => h.elim, ?_, ?_⟩
      · intro q h
        match q with
        | [] =>
          simp only [T.HashAt, false_iff, List.append_nil]
          exact fun hm => hx ⟨h, hm⟩
        | false :: q => rw [e]; exact a5 q h
        | true :: q => rw [e]; exact b5 q h
      · intro K v
        have key : ∀ (b : Bool), p ++ [b] <+: K.split →
            ((∀ q h, (p ++ q, h) ∈ hs → ¬ p ++ q <+: K.split) ↔ ∀ q h, ((p ++ [b]) ++ q, h) ∈ hs → ¬ (p ++ [b]) ++ q <+: K.split) := by
          intro b hb
          constructor
          · intro h q h' hm
            rw [← e] at hm ⊢
            exact h _ _ hm
          · intro h q h' hm
            cases q with
            | nil => exact absurd ⟨h', by simpa using hm⟩ hx
            | cons b' q =>
              intro hpre
              rw [e] at hm hpre
              have := prefix_snoc_inj hb ((List.prefix_append _ _).trans hpre)
              subst this
              exact h q h' hm hpre
        show W1.Mem K v ∨ W2.Mem K v ↔ (l.Mem K v ∨ r.Mem K v) ∧ _
        rw [a6, b6]
        constructor
        · rintro (⟨hm, hn⟩ | ⟨hm, hn⟩)
          · exact ⟨.inl hm, (key false (mem_path hw.2.1 hm).1).2 hn⟩
          · exact ⟨.inr hm, (key true (mem_path hw.2.2.1 hm).1).2 hn⟩
        · rintro ⟨hm | hm, hn⟩
          · exact .inl ⟨hm, (key false (mem_path hw.2.1 hm).1).1 hn⟩
          · exact .inr ⟨hm, (key true (mem_path hw.2.2.1 hm).1).1 hn⟩


/-! ## C57 -/

/-- A witness for the map `m`: hashes `hs` of subtrees of its Merkle tree, at pairwise incomparable positions,
and a list `es` of the entries (and possibly of absent keys, with 0) that are not below one of these positions.

`(q, h)` describes a subtree: some entry of the map has a path starting with `q`; the node above exists
(two entries go through it); and `h` is the Merkle root of the entries below `q`. -/
structure Witness (H : Nd → Key) (m : Key → U256) (hs : List (List Bool × Key)) (es : List (Key × U256)) : Prop where
  apart : hs.Pairwise (fun a b => Incomparable a.1 b.1)
  short : ∀ q h, (q, h) ∈ hs → q.length ≤ 256
  above : ∀ q h, (q, h) ∈ hs → q = [] ∨ ∃ K K', K ≠ K' ∧ m K ≠ 0 ∧ m K' ≠ 0 ∧ q.dropLast <+: K.split ∧ q.dropLast <+: K'.split
  hash : ∀ q h, (q, h) ∈ hs → ∃ L, L ≠ [] ∧ L.Nodup ∧ (∀ K v, (K, v) ∈ L ↔ v ≠ 0 ∧ m K = v ∧ q <+: K.split) ∧
    h = merkle H (256 - q.length) q.length L
  valid : ∀ K v, (K, v) ∈ es → K.Valid
  outside : ∀ K v, (K, v) ∈ es → ∀ q h, (q, h) ∈ hs → ¬ q <+: K.split
  keys : (es.map Prod.fst).Nodup
  entries : ∀ K v, v ≠ 0 → ((K, v) ∈ es ↔ m K = v ∧ ∀ q h, (q, h) ∈ hs → ¬ q <+: K.split)

theorem pairwise_cases {α : Type} {R : α → α → Prop} {l : List α} (h : l.Pairwise R) {a b : α} (ha : a ∈ l) (hb : b ∈ l) :
    a = b ∨ R a b ∨ R b a := by
  induction h with
  | nil => cases ha
  | cons hx _ ih =>
    rcases List.mem_cons.1 ha with rfl | ha' <;> rcases List.mem_cons.1 hb with rfl | hb'
    · exact .inl rfl
    · exact .inr (.inl (hx _ hb'))
    · exact .inr (.inr (hx _ ha'))
    · exact ih ha' hb'

theorem witness_tree {m : Key → U256} {hs : List (List Bool × Key)} {es : List (Key × U256)} (hw : Witness H m hs es)
    {s : Smt} {F : T} (hc : NoColl s.db) (hi : Inv H s F) (hf : ∀ h, ¬ F.HashIn h) (hh : Holds F m) :
    (∀ e, e ∈ hs → e.2 ≠ .zero) ∧ ∃ W : T, W.WF [] ∧ hashOf H 0 W = hashOf H 0 F ∧ (∀ q h, W.HashAt q h ↔ (q, h) ∈ hs) ∧
      ∀ K v, W.Mem K v ↔ v ≠ 0 ∧ (K, v) ∈ es := by
  have hat : ∀ q h, (q, h) ∈ hs → ∃ u, F.at q = some u ∧ u ≠ .empty ∧ h = hashOf H q.length u := by
    intro q h hm
    obtain ⟨L, hL, hnd, hiff, hh'⟩ := hw.hash q h hm
    obtain ⟨e, L', rfl⟩ := List.exists_cons_of_ne_nil hL
    have he := (hiff e.1 e.2).1 List.mem_cons_self
    obtain ⟨u, e1, e2, e3, e4⟩ := at_spec (p := []) (q := q) hi.wf hf
      ⟨e.1, e.2, (hh _ _).2 ⟨he.1, he.2.1⟩, by simpa using he.2.2⟩ (by
        rcases hw.above q h hm with h | ⟨K, K', h1, h2, h3, h4, h5⟩
        · exact .inl h
        · exact .inr ⟨K, _, K', _, h1, (hh _ _).2 ⟨h2, rfl⟩, (hh _ _).2 ⟨h3, rfl⟩, h4, h5⟩)
    rw [List.nil_append] at e2
    have hmk := merkle_tree (H := H) e2 e3 hnd (fun K v => by
      rw [e4, hh, hiff, List.nil_append, and_assoc])
    exact ⟨u, e1, fun h => by have := hmk.2.1.1 h; simp at this, by rw [hh', hmk.1]⟩
  have hpf : ∀ a b, a ∈ hs → b ∈ hs → a.1 <+: b.1 → a = b := by
    have := hw.apart
    intro a b ha hb hpre
    apply Classical.byContradiction
    intro hne
    rcases pairwise_cases this ha hb with h | h | h
    · exact hne h
    · exact h.1 hpre
    · exact h.2 hpre
  obtain ⟨W, a1, a2, -, -, a5, a6⟩ := hide_exists (H := H) hc hpf F [] hi.wf hf hi.stored (by simpa using hat)
  simp only [List.nil_append] at a5 a6
  refine ⟨?_, W, a1, a2, a5, fun K v => ?_⟩
  · rintro ⟨q, h⟩ he
    have := (a5 q h).2 he
    have key : ∀ {t : T} {p q}, t.WF p → t.HashAt q h → h ≠ .zero := by
      intro t
      induction t with
      | empty => intro p q _ h; simp [T.HashAt] at h
      | leaf K v => intro p q _ h; simp [T.HashAt] at h
      | hash h' => intro p q hw hq; simp only [T.HashAt] at hq; rw [← hq.2]; exact hw
      | node l r ihl ihr =>
        intro p q hw h
        match q, h with
        | [], h => simp [T.HashAt] at h
        | false :: q, h => exact ihl hw.2.1 h
        | true :: q, h => exact ihr hw.2.2.1 h
    exact key a1 this
  · rw [a6, hh]
    constructor
    · rintro ⟨⟨h1, h2⟩, h3⟩
      exact ⟨h1, (hw.entries K v h1).2 ⟨h2, h3⟩⟩
    · rintro ⟨h1, h2⟩
      have := (hw.entries K v h1).1 h2
      exact ⟨⟨h1, this.1⟩, this.2⟩

/-- **C57**. Let `s` be the full state after a history. From a witness for its map, `build` makes a state without
failing, and this state has the root of `s`. The calls must not hit a hash collision on the way. -/
theorem C57_build {ops : List Op} {s : Smt} (hv : ∀ op, op ∈ ops → op.key.Valid) (hr : run H .empty ops = .ok s)
    (hc : NoColl s.db) {hs : List (List Bool × Key)} {es : List (Key × U256)}
    (hw : Witness H (lastVal (fun _ => 0) ops) hs es)
    (hcb : ∀ hs' es', hs' <+: hs → es' <+: es → ∀ p, build H hs' es' = .ok p → NoColl p.db) :
    ∃ p, build H hs es = .ok p ∧ p.root = s.root ∧ ∀ K v, p.kv K = some v ↔ v ≠ 0 ∧ (K, v) ∈ es := by
  obtain ⟨F, hi, hf, hh⟩ := history hv hr hc
  obtain ⟨h0, W, w1, w2, w3, w4⟩ := witness_tree hw hc hi hf hh
  obtain ⟨p, t, b1, b2, b3, b4⟩ := build_spec (H := H) (hs := hs) (es := es)
    (fun e he => ⟨hw.short e.1 e.2 he, h0 e he⟩) hw.apart
    (fun e he => ⟨hw.valid e.1 e.2 he, fun x hx => hw.outside e.1 e.2 he x.1 x.2 hx⟩) hw.keys hcb
  have : t = W := tree_unique b2.wf w1 (fun K v => (b4 K v).trans (w4 K v).symm) (fun q h => (b3 q h).trans (w3 q h).symm)
  subst this
  exact ⟨p, b1, by rw [b2.root, hi.root, w2], fun K v => (b2.kv K v).trans (b4 K v)⟩

theorem Db.get_append {d d' : Db} : d.Le (d ++ d') := by
  induction d with
  | nil => intro k n h; cases h
  | cons e d ih => exact ih.cons e

/-- **C57**. After every further history of updates on which the state built from the witness does not fail,
its root is the Merkle root of the updated map: the hidden part of the map is taken into account. -/
theorem C57_updates {ops : List Op} {s : Smt} (hv : ∀ op, op ∈ ops → op.key.Valid) (hr : run H .empty ops = .ok s)
    {hs : List (List Bool × Key)} {es : List (Key × U256)} (hw : Witness H (lastVal (fun _ => 0) ops) hs es)
    (hcb : ∀ hs' es', hs' <+: hs → es' <+: es → ∀ p, build H hs' es' = .ok p → NoColl p.db)
    {p : Smt} (hp : build H hs es = .ok p) {ops' : List Op} (hv' : ∀ op, op ∈ ops' → op.key.Valid) {p' : Smt}
    (hr' : run H p ops' = .ok p') (hc : NoColl (p'.db ++ s.db)) (L : List (Key × U256)) (hn : L.Nodup)
    (hL : ∀ K v, (K, v) ∈ L ↔ v ≠ 0 ∧ lastVal (fun _ => 0) (ops ++ ops') K = v) :
    p'.root = merkle H 256 0 L := by
  have hcs : NoColl s.db := hc.mono (fun e he => List.mem_append_right _ he)
  obtain ⟨F, hi, hf, hh⟩ := history hv hr hcs
  obtain ⟨p2, b1, b2, -⟩ := C57_build hv hr hcs hw hcb
  rw [hp] at b1
  cases b1
  let s2 : Smt := ⟨p.db ++ s.db, s.kv, s.root⟩
  obtain ⟨s3, r1, r2, new, r3, r4⟩ := run_both (p := p) (s := s2) b2 Db.get_append hr'
  have hi2 : Inv H s2 F := ⟨hi.root, hi.stored.mono (fun e he => List.mem_append_right _ he), hi.wf, hi.kv⟩
  have hdb : s3.db = p'.db ++ s.db := by rw [r4, r3]; simp [s2]
  obtain ⟨t, hi3, hf3, hh3⟩ := run_spec hi2 hf hh hv' r1 (by rw [hdb]; exact hc)
  have hlast : lastVal (lastVal (fun _ => 0) ops) ops' = lastVal (fun _ => 0) (ops ++ ops') := by
    simp [lastVal]
  rw [hlast] at hh3
  have := (merkle_tree (H := H) (p := []) hi3.wf hf3 hn (fun K v => (hL K v).trans (hh3 K v).symm)).1
  rw [r2, hi3.root]
  exact this.symm

end

/-! ## Non-vacuity -/

/-- A full state with entries on both sides of the root. -/
def wOps : List Op :=
  [.set ⟨4, 0, 0, 0⟩ 1, .set ⟨4, 1, 0, 0⟩ 2, .set ⟨5, 0, 0, 0⟩ 3, .set ⟨7, 0, 0, 0⟩ 4]

/-- The entries on the left hashed out. -/
def wHs : List (List Bool × Key) :=
  [([false], merkle toyH 255 1 [(⟨4, 0, 0, 0⟩, 1), (⟨4, 1, 0, 0⟩, 2)])]

def wEs : List (Key × U256) := [(⟨5, 0, 0, 0⟩, 3), (⟨7, 0, 0, 0⟩, 4), (⟨9, 0, 0, 0⟩, 0)]

theorem wLast (K : Key) : lastVal (fun _ => 0) wOps K =
    if K = ⟨7, 0, 0, 0⟩ then 4 else if K = ⟨5, 0, 0, 0⟩ then 3 else if K = ⟨4, 1, 0, 0⟩ then 2
    else if K = ⟨4, 0, 0, 0⟩ then 1 else 0 := rfl

theorem prefix_false (K : Key) : [false] <+: K.split ↔ kbit K 0 = false := by
  have h := split_get K (i := 0) (by omega)
  have hl := split_length K
  cases hs : K.split with
  | nil => rw [hs] at hl; simp at hl
  | cons b l =>
    simp only [hs, List.getElem_cons_zero] at h
    rw [List.cons_prefix_cons, ← h]
    simp [eq_comm]

theorem wWitness : Witness toyH (lastVal (fun _ => 0) wOps) wHs wEs where
  apart := by simp [wHs]
  short := by intro q h hm; simp [wHs] at hm; simp [hm.1]
  above := by
    intro q h hm
    simp only [wHs, List.mem_singleton, Prod.mk.injEq] at hm
    obtain ⟨rfl, -⟩ := hm
    exact .inr ⟨⟨4, 0, 0, 0⟩, ⟨5, 0, 0, 0⟩, by decide, by decide, by decide, List.nil_prefix, List.nil_prefix⟩
  hash := by
    intro q h hm
    simp only [wHs, List.mem_singleton, Prod.mk.injEq] at hm
    obtain ⟨rfl, rfl⟩ := hm
    refine ⟨_, ?_, ?_, ?_, rfl⟩
    · decide
    · decide
    · intro K v
      rw [wLast, prefix_false]
      simp only [List.mem_cons, Prod.mk.injEq, List.not_mem_nil, or_false]
      constructor
      · rintro (⟨rfl, rfl⟩ | ⟨rfl, rfl⟩) <;> decide
      · rintro ⟨h1, h2, h3⟩
        by_cases k7 : K = ⟨7, 0, 0, 0⟩
        · subst k7; exact absurd h3 (by decide)
        by_cases k5 : K = ⟨5, 0, 0, 0⟩
        · subst k5; exact absurd h3 (by decide)
        rw [if_neg k7, if_neg k5] at h2
        by_cases k2 : K = ⟨4, 1, 0, 0⟩
        · rw [if_pos k2] at h2; exact .inr ⟨k2, h2.symm⟩
        by_cases k1 : K = ⟨4, 0, 0, 0⟩
        · rw [if_neg k2, if_pos k1] at h2; exact .inl ⟨k1, h2.symm⟩
        rw [if_neg k2, if_neg k1] at h2
        exact absurd h2.symm h1
  valid := by
    intro K v hm
    simp only [wEs, List.mem_cons, Prod.mk.injEq, List.not_mem_nil, or_false] at hm
    rcases hm with ⟨rfl, -⟩ | ⟨rfl, -⟩ | ⟨rfl, -⟩ <;> simp [Key.Valid]
  outside := by
    intro K v hm q h hq
    simp only [wHs, List.mem_singleton, Prod.mk.injEq] at hq
    obtain ⟨rfl, -⟩ := hq
    rw [prefix_false]
    simp only [wEs, List.mem_cons, Prod.mk.injEq, List.not_mem_nil, or_false] at hm
    rcases hm with ⟨rfl, -⟩ | ⟨rfl, -⟩ | ⟨rfl, -⟩ <;> decide
  keys := by decide
  entries := by
    intro K v hv
    rw [wLast]
    have : (∀ q h, (q, h) ∈ wHs → ¬ q <+: K.split) ↔ ¬ kbit K 0 = false := by
      rw [← prefix_false]
      constructor
      · exact fun h => h _ _ List.mem_cons_self
      · intro h q h' hm
        simp only [wHs, List.mem_singleton, Prod.mk.injEq] at hm
        obtain ⟨rfl, -⟩ := hm
        exact h
    rw [this]
    simp only [wEs, List.mem_cons, Prod.mk.injEq, List.not_mem_nil, or_false]
    constructor
    · rintro (⟨rfl, rfl⟩ | ⟨rfl, rfl⟩ | ⟨rfl, rfl⟩)
      · decide
      · decide
      · exact absurd rfl hv
    · rintro ⟨h1, h2⟩
      by_cases k7 : K = ⟨7, 0, 0, 0⟩
      · rw [if_pos k7] at h1; exact .inr (.inl ⟨k7, h1.symm⟩)
      by_cases k5 : K = ⟨5, 0, 0, 0⟩
      · rw [if_neg k7, if_pos k5] at h1; exact .inl ⟨k5, h1.symm⟩
      by_cases k2 : K = ⟨4, 1, 0, 0⟩
      · subst k2; exact absurd (by decide) h2
      by_cases k1 : K = ⟨4, 0, 0, 0⟩
      · subst k1; exact absurd (by decide) h2
      rw [if_neg k7, if_neg k5, if_neg k2, if_neg k1] at h1
      exact absurd h1.symm hv

theorem wNoColl : ∀ hs' es', hs' <+: wHs → es' <+: wEs → ∀ p, build toyH hs' es' = .ok p → NoColl p.db := by
  intro hs' es' h1 h2 p hp
  have e1 := List.prefix_iff_eq_take.1 h1
  have e2 := List.prefix_iff_eq_take.1 h2
  have l1 : hs'.length < 2 := Nat.lt_succ_of_le h1.length_le
  have l2 : es'.length < 4 := Nat.lt_succ_of_le h2.length_le
  have key : ∀ n, n < 2 → ∀ k, k < 4 → (match build toyH (wHs.take n) (wEs.take k) with
    | .ok p => noCollB p.db | .error _ => true) = true := by decide +kernel
  have := key _ l1 _ l2
  rw [← e1, ← e2, hp] at this
  exact noCollB_sound this

/-- The hypotheses of `C57_build` and `C57_updates` are met, with further updates that insert, change and
remove entries. -/
example : Witness toyH (lastVal (fun _ => 0) wOps) wHs wEs ∧
    (∀ hs' es', hs' <+: wHs → es' <+: wEs → ∀ p, build toyH hs' es' = .ok p → NoColl p.db) ∧
    (match run toyH .empty wOps, build toyH wHs wEs with
      | .ok s, .ok p =>
        match run toyH p [.set ⟨9, 0, 0, 0⟩ 6, .set ⟨5, 0, 0, 0⟩ 8, .delete ⟨7, 0, 0, 0⟩] with
        | .ok p' => noCollB (p'.db ++ s.db)
        | .error _ => false
      | _, _ => false) = true :=
  ⟨wWitness, wNoColl, by decide +kernel⟩

end Verif.Smt
