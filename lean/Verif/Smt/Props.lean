import Verif.Smt.SetSpec
/-!
# The sparse Merkle tree is a map with a canonical root (C16, C17, C18)
-/
namespace Verif.Smt

/-! ## Specification -/

/-- A call that changes the tree. -/
inductive Op where
  | set (K : Key) (v : U256)
  | delete (K : Key)

/-- The key of a call. -/
def Op.key : Op → Key
  | .set K _ => K
  | .delete K => K

/-- The value the call gives its key; 0 means removed. -/
def Op.val : Op → U256
  | .set _ v => v
  | .delete _ => 0

/-- The value last given to a key in a history (starting from `m`). -/
def lastVal (m : Key → U256) (ops : List Op) : Key → U256 :=
  ops.foldl (fun m op k => if k = op.key then op.val else m k) m

/-- Running a history. -/
def run (H : Nd → Key) : Smt → List Op → Except Fault Smt
  | s, [] => .ok s
  | s, .set K v :: ops =>
    match s.set H K v with
    | .ok s => run H s ops
    | .error f => .error f
  | s, .delete K :: ops =>
    match s.delete H K with
    | .ok s => run H s ops
    | .error f => .error f

/-- The Merkle root of a finite map, at depth `d`: nothing is zero, a single entry is a leaf with the
rest of its key, more entries are split on bit `d` of the path. `f` bounds the number of splits. -/
def merkle (H : Nd → Key) : Nat → Nat → List (Key × U256) → Key
  | _, _, [] => .zero
  | _, d, [(K, v)] => H ⟨K.removeBits d, H (valNode v), .one⟩
  | 0, _, _ => .zero
  | f + 1, d, L =>
    H ⟨merkle H f (d + 1) (L.filter (fun e => !kbit e.1 d)), merkle H f (d + 1) (L.filter (fun e => kbit e.1 d)), .zero⟩

/-! ## Values round-trip -/

theorem limb_eq (v : U256) (i : Nat) : limb v i = v.toNat / 2 ^ (32 * i) % 2 ^ 32 := by
  unfold limb
  rw [BitVec.toNat_ushiftRight, Nat.shiftRight_eq_div_pow, Nat.mod_mod_of_dvd _ (by decide)]

theorem limbs2f_valNode (v : U256) : limbs2f (valNode v) = v := by
  apply BitVec.eq_of_toNat_eq
  have hv := v.isLt
  simp only [limbs2f, valNode, limb_eq, BitVec.toNat_add, BitVec.toNat_shiftLeft, BitVec.toNat_ofNat, Nat.shiftLeft_eq]
  generalize v.toNat = x at *
  have e1 : x / 2 ^ (32 * 1) = x / 2 ^ 32 := rfl
  have e2 : x / 2 ^ (32 * 2) = x / 2 ^ 32 / 2 ^ 32 := by rw [Nat.div_div_eq_div_mul]
  have e3 : x / 2 ^ (32 * 3) = x / 2 ^ 32 / 2 ^ 32 / 2 ^ 32 := by simp only [Nat.div_div_eq_div_mul]
  have e4 : x / 2 ^ (32 * 4) = x / 2 ^ 32 / 2 ^ 32 / 2 ^ 32 / 2 ^ 32 := by simp only [Nat.div_div_eq_div_mul]
  have e5 : x / 2 ^ (32 * 5) = x / 2 ^ 32 / 2 ^ 32 / 2 ^ 32 / 2 ^ 32 / 2 ^ 32 := by
    simp only [Nat.div_div_eq_div_mul]
  have e6 : x / 2 ^ (32 * 6) = x / 2 ^ 32 / 2 ^ 32 / 2 ^ 32 / 2 ^ 32 / 2 ^ 32 / 2 ^ 32 := by
    simp only [Nat.div_div_eq_div_mul]
  have e7 : x / 2 ^ (32 * 7) = x / 2 ^ 32 / 2 ^ 32 / 2 ^ 32 / 2 ^ 32 / 2 ^ 32 / 2 ^ 32 / 2 ^ 32 := by
    simp only [Nat.div_div_eq_div_mul]
  have e0 : x / 2 ^ (32 * 0) = x := by simp
  rw [e0, e1, e2, e3, e4, e5, e6, e7]
  omega

theorem valNode_inj {v w : U256} (h : valNode v = valNode w) : v = w := by
  rw [← limbs2f_valNode v, h, limbs2f_valNode]

section
variable {H : Nd → Key}

/-! ## Lookups -/

/-- The result of a lookup. -/
def Got (db : Db) (kv : Key → Option U256) (K : Key) (res : Except Fault U256) : T → Prop
  | .empty => res = .error .unreachable
  | .leaf K' v' => res = if K' = K then (if v' = (kv K).getD 0 then .ok v' else .error .assertion)
      else if (kv K).getD 0 = 0 then .ok 0 else .error .assertion
  | .hash h => db.get h = none → res = .error .unwrapNone
  | .node _ _ => False

theorem getLoop_spec {db : Db} (hc : NoColl db) {kv : Key → Option U256} {K : Key} (t : T) : ∀ (bits : List Bool) (ctx : Ctx),
    (plug ctx t).WF [] → Stored H db 0 (plug ctx t) → path ctx ++ bits = K.split →
    ∃ c u, plug c u = plug ctx t ∧ path c <+: K.split ∧
      Got db kv K (getLoop db kv K bits (path ctx) (hashOf H ctx.length t)) u := by
  induction t with
  | empty =>
    intro bits ctx _ _ hb
    refine ⟨ctx, .empty, rfl, ⟨bits, hb⟩, ?_⟩
    cases bits <;> simp [Got, getLoop, hashOf]
  | leaf K' v' =>
    intro bits ctx hw hs hb
    refine ⟨ctx, .leaf K' v', rfl, ⟨bits, hb⟩, ?_⟩
    have hst := (stored_plug hs).1
    have hne : H (leafNd H ctx.length K' v') ≠ .zero := hc.ne hst.1
    have hwl := (wf_plug.1 hw).2.1
    have h1 := hc.get hst.1
    have h2 := hc.get hst.2
    have hl : (leafNd H ctx.length K' v').isLeaf = true := rfl
    have hj : Key.join (path ctx) (leafNd H ctx.length K' v').l = K' := join_path hwl.1 hwl.2.2
    have hr : (leafNd H ctx.length K' v').r = H (valNode v') := rfl
    have : getLoop db kv K bits (path ctx) (H (leafNd H ctx.length K' v')) =
        if K' = K then (if v' = (kv K).getD 0 then .ok v' else .error .assertion)
          else if (kv K).getD 0 = 0 then .ok 0 else .error .assertion := by
      cases bits <;>
      · rw [getLoop, if_neg hne, h1]
        simp only [hl, if_true, hr, h2, hj, limbs2f_valNode]
    exact this
  | hash h =>
    intro bits ctx hw hs hb
    refine ⟨ctx, .hash h, rfl, ⟨bits, hb⟩, ?_⟩
    have hne : h ≠ .zero := (wf_plug.1 hw).2.1
    intro hn
    cases bits <;> simp [getLoop, hashOf, hne, hn]
  | node l r ihl ihr =>
    intro bits ctx hw hs hb
    have hst := (stored_plug hs).1
    have hwl := (wf_plug.1 hw).2.1
    have hlen := congrArg List.length hb
    rw [List.length_append, split_length] at hlen
    cases bits with
    | nil =>
      have := hwl.1
      rw [List.length_nil] at hlen
      omega
    | cons b bs =>
      have h1 := hc.get hst.1
      have hne := hc.ne hst.1
      have hb' : ∀ s, path ((b, s) :: ctx) ++ bs = K.split := by
        intro s; rw [path_cons, List.append_assoc]; exact hb
      cases b with
      | false =>
        obtain ⟨c, u, e1, e2, e3⟩ := ihl bs ((false, r) :: ctx) hw hs (hb' r)
        refine ⟨c, u, e1, e2, ?_⟩
        rw [getLoop, if_neg hne, h1]
        rw [path_cons] at e3
        exact e3
      | true =>
        obtain ⟨c, u, e1, e2, e3⟩ := ihr bs ((true, l) :: ctx) hw hs (hb' l)
        refine ⟨c, u, e1, e2, ?_⟩
        rw [getLoop, if_neg hne, h1]
        rw [path_cons] at e3
        exact e3

theorem get_spec {s : Smt} {t : T} (hc : NoColl s.db) (hi : Inv H s t) (K : Key) :
    ∃ c u, plug c u = t ∧ path c <+: K.split ∧ Got s.db s.kv K (s.get K) u := by
  obtain ⟨c, u, h1, h2, h3⟩ := getLoop_spec (H := H) hc (kv := s.kv) (K := K) t K.split [] hi.wf hi.stored rfl
  refine ⟨c, u, h1, h2, ?_⟩
  have : s.get K = getLoop s.db s.kv K K.split (path []) (hashOf H ([] : Ctx).length t) := by
    rw [Smt.get, hi.root]; rfl
  rw [this]; exact h3

theorem get_present {s : Smt} {t : T} (hc : NoColl s.db) (hi : Inv H s t) {K : Key} {v : U256} (hm : t.Mem K v) :
    s.get K = .ok v := by
  obtain ⟨c, u, h1, h2, h3⟩ := get_spec hc hi K
  have hwp := wf_plug.1 (h1.symm ▸ hi.wf)
  have hkv := (hi.kv K v).2 hm
  rw [← h1, mem_plug] at hm
  rcases hm with hm | hm
  · cases u with
    | empty => exact hm.elim
    | node l r => exact h3.elim
    | hash h => exact hm.elim
    | leaf K' v' =>
      obtain ⟨rfl, rfl⟩ := hm
      have h3 : _ = _ := h3
      rw [h3, hkv]
      simp
  · exact absurd hm (off_path hwp.1 h2)

/-! ## The database only grows -/

theorem chain_sub (bits : List Bool) (db : Db) (r : Key) : db <:+ (chain H db bits r).1 := by
  induction bits generalizing db r with
  | nil => exact List.suffix_refl _
  | cons b bs ih =>
    rw [chain]
    have : db <:+ (if b then hash0 H db .zero r else hash0 H db r .zero).1 := by
      cases b <;> exact List.suffix_cons _ _
    exact this.trans (ih _ _)

theorem finish_sub (st : Stack) (db : Db) (root : Key) : db <:+ (finish H db st root).1 := by
  induction hn : st.length generalizing st db root with
  | zero =>
    cases st with
    | nil => rw [finish]; exact List.suffix_refl _
    | cons => simp at hn
  | succ n ih =>
    match st, hn with
    | [(b, m)], _ => rw [finish]; exact List.suffix_cons _ _
    | (b, m) :: (b2, m2) :: up, hn =>
      rw [finish]
      exact (List.suffix_cons _ _).trans (ih _ _ _ (by simpa using hn))

theorem removeFound_sub {db : Db} {st : Stack} {acc : List Bool} {root : Key} {r : Db × Stack × Key}
    (h : removeFound H db st acc root = .ok r) : db <:+ r.1 := by
  unfold removeFound at h
  split at h
  · cases h; exact List.suffix_refl _
  · dsimp only at h
    split at h
    · cases h
    · split at h
      · cases h
      · split at h
        · split at h
          · cases h
          · split at h
            · cases h; exact List.suffix_cons _ _
            · cases h
        · cases h; exact List.suffix_refl _

theorem splitLeaf_sub {db : Db} {K : Key} {v : U256} {st : Stack} {fk ov root : Key} {r : Db × Stack × Key}
    (h : splitLeaf H db K v st fk ov root = .ok r) : db <:+ r.1 := by
  unfold splitLeaf at h
  dsimp only at h
  split at h
  · cases h
  · cases h
    refine List.IsSuffix.trans ?_ (chain_sub _ _ _)
    exact ⟨[_, _, _, _], rfl⟩

theorem update_sub {db : Db} {K : Key} {v : U256} {root : Key} {st : Stack} {acc : List Bool}
    {f : Option (Key × Key × Key)} {r : Db × Stack × Key} (h : update H db K v root st acc f = .ok r) :
    db <:+ r.1 := by
  cases f with
  | none =>
    rw [update] at h
    split at h
    · cases h; exact List.suffix_refl _
    · cases h; exact ⟨[_, _], rfl⟩
  | some f =>
    obtain ⟨a, b, c⟩ := f
    rw [update] at h
    split at h
    · split at h
      · exact removeFound_sub h
      · cases h; exact List.suffix_refl _
    · split at h
      · cases h; exact ⟨[_, _], rfl⟩
      · exact splitLeaf_sub h

theorem set_sub {s s' : Smt} {K : Key} {v : U256} (h : s.set H K v = .ok s') : s.db <:+ s'.db := by
  unfold Smt.set at h
  split at h
  · cases h
  · split at h
    · cases h
    · rename_i hu
      cases h
      exact (update_sub hu).trans (finish_sub _ _ _)

theorem run_sub {s s' : Smt} {ops : List Op} (h : run H s ops = .ok s') : s.db <:+ s'.db := by
  induction ops generalizing s with
  | nil => cases h; exact List.suffix_refl _
  | cons op ops ih =>
    cases op with
    | set K v =>
      rw [run] at h
      split at h
      · rename_i s1 h1; exact (set_sub h1).trans (ih h)
      · cases h
    | delete K =>
      rw [run] at h
      split at h
      · rename_i s1 h1
        unfold Smt.delete at h1
        have := set_sub h1
        exact this.trans (ih h)
      · cases h

theorem NoColl.suffix {db db' : Db} (hc : NoColl db') (h : db <:+ db') : NoColl db := hc.mono (fun _ he => h.subset he)

/-! ## Histories -/

/-- `delete` is `set` with 0 (the key-value store is updated twice). -/
theorem delete_eq (s : Smt) (K : Key) : s.delete H K = s.set H K 0 := by
  unfold Smt.delete Smt.set
  dsimp only
  cases descend s.db K.split [] [] s.root with
  | error f => rfl
  | ok p =>
    obtain ⟨st, acc, f⟩ := p
    dsimp only
    cases update H s.db K 0 s.root st acc f with
    | error f => rfl
    | ok q =>
      dsimp only
      congr 2
      funext k
      split <;> rfl

theorem run_cons (s : Smt) (op : Op) (ops : List Op) :
    run H s (op :: ops) = match s.set H op.key op.val with
      | .ok s => run H s ops
      | .error f => .error f := by
  cases op with
  | set K v => rfl
  | delete K => rw [run, delete_eq]; rfl

/-- The tree holds exactly the map. -/
def Holds (t : T) (m : Key → U256) : Prop := ∀ K v, t.Mem K v ↔ v ≠ 0 ∧ m K = v

theorem run_spec {ops : List Op} : ∀ {s s' : Smt} {t : T} {m : Key → U256}, Inv H s t → (∀ h, ¬ t.HashIn h) → Holds t m →
    (∀ op, op ∈ ops → op.key.Valid) → run H s ops = .ok s' → NoColl s'.db →
    ∃ t', Inv H s' t' ∧ (∀ h, ¬ t'.HashIn h) ∧ Holds t' (lastVal m ops) := by
  induction ops with
  | nil => intro s s' t m hi hf hh _ hr _; cases hr; exact ⟨t, hi, hf, hh⟩
  | cons op ops ih =>
    intro s s' t m hi hf hh hv hr hc
    have hsub := run_sub hr
    rw [run_cons] at hr
    split at hr
    · rename_i s1 h1
      rcases set_spec (hc.suffix hsub) hi (fun h hh => absurd hh (hf h)) (hv op List.mem_cons_self) op.val with
        ⟨s2, t2, e1, e2, -, e4, e5⟩ | ⟨e1, q, h, hh, -⟩
      · rw [h1] at e1
        cases e1
        refine ih (m := fun k => if k = op.key then op.val else m k) e2 (fun h hh => by
          obtain ⟨q, hq⟩ := hashIn_iff.1 hh
          exact hf h (hashIn_iff.2 ⟨q, (e4 q h).1 hq⟩)) ?_
          (fun o ho => hv o (List.mem_cons_of_mem _ ho)) hr hc
        intro K v
        rw [e5]
        by_cases hk : K = op.key
        · simp only [hk, if_true]
          constructor
          · rintro ⟨h1, rfl⟩; exact ⟨h1, rfl⟩
          · rintro ⟨h1, rfl⟩; exact ⟨h1, rfl⟩
        · simp only [hk, if_false]; exact hh K v
      · exact absurd (hashIn_iff.2 ⟨q, hh⟩) (hf h)
    · cases hr

theorem holds_empty : Holds .empty (fun _ => 0) := by
  intro K v
  simp only [T.Mem, false_iff, not_and]
  exact fun h h' => h h'.symm

/-- The tree of a history that starts with the empty tree. -/
theorem history {ops : List Op} {s : Smt} (hv : ∀ op, op ∈ ops → op.key.Valid) (hr : run H .empty ops = .ok s)
    (hc : NoColl s.db) : ∃ t, Inv H s t ∧ (∀ h, ¬ t.HashIn h) ∧ Holds t (lastVal (fun _ => 0) ops) :=
  run_spec Inv.empty (fun _ h => h) holds_empty hv hr hc

/-! ## C16 -/

/-- **C16**. After every history of `set` and `delete` without hash collisions, `get` returns the last
value set for a key, and every further `set` succeeds. -/
theorem C16_map {ops : List Op} {s : Smt} (hv : ∀ op, op ∈ ops → op.key.Valid) (hr : run H .empty ops = .ok s)
    (hc : NoColl s.db) :
    (∀ K, lastVal (fun _ => 0) ops K ≠ 0 → s.get K = .ok (lastVal (fun _ => 0) ops K)) ∧
      ∀ K v, K.Valid → ∃ s', s.set H K v = .ok s' := by
  obtain ⟨t, hi, hf, hh⟩ := history hv hr hc
  refine ⟨fun K hK => get_present hc hi ((hh K _).2 ⟨hK, rfl⟩), fun K v hK => ?_⟩
  rcases set_spec hc hi (fun h hh => absurd hh (hf h)) hK v with ⟨s2, t2, e1, -⟩ | ⟨-, q, h, hh, -⟩
  · exact ⟨s2, e1⟩
  · exact absurd (hashIn_iff.2 ⟨q, hh⟩) (hf h)

/-! ## C18 -/

theorem filter_length {α : Type} (L : List α) (f : α → Bool) :
    (L.filter (fun e => !f e)).length + (L.filter f).length = L.length := by
  induction L with
  | nil => rfl
  | cons a L ih => cases h : f a <;> simp [h] <;> omega

theorem merkle_tree {p : List Bool} {t : T} (hw : t.WF p) (hf : ∀ h, ¬ t.HashIn h) {L : List (Key × U256)}
    (hn : L.Nodup) (hL : ∀ K v, (K, v) ∈ L ↔ t.Mem K v) :
    merkle H (256 - p.length) p.length L = hashOf H p.length t ∧ (t = .empty ↔ L = []) ∧ (L.length ≤ 1 ↔ t.Light) := by
  induction t generalizing p L with
  | empty =>
    have : L = [] := List.eq_nil_iff_forall_not_mem.2 (fun e he => (hL e.1 e.2).1 he)
    subst this
    simp [merkle, hashOf, T.Light]
  | hash h => exact absurd rfl (hf h)
  | leaf K v =>
    have hm : ∀ e, e ∈ L ↔ e = (K, v) := by
      rintro ⟨K', v'⟩
      rw [hL]
      simp [T.Mem, eq_comm]
    have : L = [(K, v)] := by
      match L, hn, hm with
      | [], _, hm => exact absurd ((hm (K, v)).2 rfl) (by simp)
      | [e], _, hm => rw [(hm e).1 List.mem_cons_self]
      | e :: e' :: L, hn, hm =>
        have h1 := (hm e).1 List.mem_cons_self
        have h2 := (hm e').1 (by simp)
        rw [List.nodup_cons] at hn
        exact absurd (by rw [h1, h2]; exact List.mem_cons_self) hn.1
    subst this
    simp [merkle, hashOf, T.Light, leafNd]
  | node l r ihl ihr =>
    obtain ⟨h1, h2, h3, h4, h5⟩ := hw
    have hbit : ∀ {K : Key} {b : Bool}, p ++ [b] <+: K.split → kbit K p.length = b := by
      intro K b h
      have := List.IsPrefix.getElem h (i := p.length) (by simp)
      rw [List.getElem_append_right (Nat.le_refl _)] at this
      simp only [Nat.sub_self, List.getElem_cons_zero] at this
      rw [this, split_get K (by omega)]
    have el : ∀ K v, (K, v) ∈ L.filter (fun e => !kbit e.1 p.length) ↔ l.Mem K v := by
      intro K v
      rw [List.mem_filter, hL]
      constructor
      · rintro ⟨h | h, hb⟩
        · exact h
        · rw [hbit (mem_path h3 h).1] at hb; simp at hb
      · intro h
        exact ⟨.inl h, by simp [hbit (mem_path h2 h).1]⟩
    have er : ∀ K v, (K, v) ∈ L.filter (fun e => kbit e.1 p.length) ↔ r.Mem K v := by
      intro K v
      rw [List.mem_filter, hL]
      constructor
      · rintro ⟨h | h, hb⟩
        · rw [hbit (mem_path h2 h).1] at hb; simp at hb
        · exact h
      · intro h
        exact ⟨.inr h, by simp [hbit (mem_path h3 h).1]⟩
    have ihl := ihl h2 (fun h hh => hf h (.inl hh)) (hn.filter _) el
    have ihr := ihr h3 (fun h hh => hf h (.inr hh)) (hn.filter _) er
    have hlen : (L.filter (fun e => !kbit e.1 p.length)).length + (L.filter (fun e => kbit e.1 p.length)).length = L.length := by
      exact filter_length L (fun e => kbit e.1 p.length)
    have hbig : ¬ L.length ≤ 1 := by
      intro hle
      by_cases hl0 : l = .empty
      · have := ihl.2.1.1 hl0
        rw [this, List.length_nil] at hlen
        have h6 := ihr.2.2.1 (by omega)
        exact h4 ⟨hl0, h6⟩
      · have h6 : (L.filter (fun e => !kbit e.1 p.length)) ≠ [] := fun h => hl0 (ihl.2.1.2 h)
        have h7 := List.length_pos_iff.2 h6
        have h8 : (L.filter (fun e => kbit e.1 p.length)) = [] := List.length_eq_zero_iff.1 (by omega)
        exact h5 ⟨ihr.2.1.2 h8, ihl.2.2.1 (by omega)⟩
    refine ⟨?_, ?_, ?_⟩
    · obtain ⟨f, hfu⟩ : ∃ f, 256 - p.length = f + 1 := ⟨256 - p.length - 1, by omega⟩
      have hf' : 256 - (p.length + 1) = f := by omega
      have e1 := ihl.1; have e2 := ihr.1
      simp only [List.length_append, List.length_singleton, hf'] at e1 e2
      rw [hfu]
      have hm : ∀ L : List (Key × U256), ¬ L.length ≤ 1 → merkle H (f + 1) p.length L =
          H ⟨merkle H f (p.length + 1) (L.filter (fun e => !kbit e.1 p.length)),
            merkle H f (p.length + 1) (L.filter (fun e => kbit e.1 p.length)), .zero⟩ := by
        intro L hbig
        match L, hbig with
        | [], hbig => exact absurd (by simp) hbig
        | [_], hbig => exact absurd (by simp) hbig
        | a :: b :: L, _ => rw [merkle] <;> simp
      rw [hm L hbig, e1, e2]
      rfl
    · constructor
      · intro h; cases h
      · intro h; subst h; simp at hbig
    · exact ⟨fun h => absurd h hbig, fun h => h.elim⟩

/-- The entries of a tree. -/
def T.toList : T → List (Key × U256)
  | .empty => []
  | .leaf K v => [(K, v)]
  | .node l r => l.toList ++ r.toList
  | .hash _ => []

theorem mem_toList {t : T} {K : Key} {v : U256} : (K, v) ∈ t.toList ↔ t.Mem K v := by
  induction t with
  | empty => simp [T.toList, T.Mem]
  | leaf K' v' => simp [T.toList, T.Mem, eq_comm]
  | hash h => simp [T.toList, T.Mem]
  | node l r ihl ihr => simp [T.toList, T.Mem, ihl, ihr]

theorem nodup_toList {t : T} : ∀ {p : List Bool}, t.WF p → t.toList.Nodup := by
  induction t with
  | empty => intro _ _; exact List.nodup_nil
  | leaf K v => intro _ _; simp [T.toList]
  | hash h => intro _ _; exact List.nodup_nil
  | node l r ihl ihr =>
    intro p hw
    rw [T.toList, List.nodup_append]
    refine ⟨ihl hw.2.1, ihr hw.2.2.1, ?_⟩
    rintro ⟨K, v⟩ h1 e h2 rfl
    exact absurd (prefix_snoc_inj (mem_path hw.2.1 (mem_toList.1 h1)).1 (mem_path hw.2.2.1 (mem_toList.1 h2)).1)
      (by decide)

/-- **C18**. After every history the root is the Merkle root of the final map. -/
theorem C18_root {ops : List Op} {s : Smt} (hv : ∀ op, op ∈ ops → op.key.Valid) (hr : run H .empty ops = .ok s)
    (hc : NoColl s.db) (L : List (Key × U256)) (hn : L.Nodup)
    (hL : ∀ K v, (K, v) ∈ L ↔ v ≠ 0 ∧ lastVal (fun _ => 0) ops K = v) : s.root = merkle H 256 0 L := by
  obtain ⟨t, hi, hf, hh⟩ := history hv hr hc
  have := (merkle_tree (H := H) hi.wf hf hn (fun K v => (hL K v).trans (hh K v).symm)).1
  rw [hi.root]; exact this.symm

/-- **C18**. Two histories that end with the same map end with the same root. -/
theorem C18_history_independent {ops ops' : List Op} {s s' : Smt} (hv : ∀ op, op ∈ ops → op.key.Valid)
    (hv' : ∀ op, op ∈ ops' → op.key.Valid) (hr : run H .empty ops = .ok s) (hr' : run H .empty ops' = .ok s')
    (hc : NoColl s.db) (hc' : NoColl s'.db)
    (h : ∀ K, lastVal (fun _ => 0) ops K = lastVal (fun _ => 0) ops' K) : s.root = s'.root := by
  obtain ⟨t, hi, hf, hh⟩ := history hv hr hc
  have hn := nodup_toList hi.wf
  rw [C18_root hv hr hc t.toList hn (fun K v => mem_toList.trans (hh K v)),
    C18_root hv' hr' hc' t.toList hn (fun K v => by rw [← h]; exact mem_toList.trans (hh K v))]

theorem NoColl.inj' {db : Db} (hc : NoColl db) {k k' : Key} {n m : Nd} (he : k = k') (h1 : (k, n) ∈ db)
    (h2 : (k', m) ∈ db) : n = m := by subst he; exact hc.inj h1 h2

/-- Trees with the same hash are equal. -/
theorem hashOf_inj {db : Db} (hc : NoColl db) {t : T} : ∀ {p : List Bool} {t' : T}, t.WF p → t'.WF p → (∀ h, ¬ t.HashIn h) →
    (∀ h, ¬ t'.HashIn h) → Stored H db p.length t → Stored H db p.length t' →
    hashOf H p.length t = hashOf H p.length t' → t = t' := by
  induction t with
  | hash h => intro _ _ _ _ hf; exact absurd rfl (hf h)
  | empty =>
    intro p t' _ hw' _ _ _ hs' he
    exact ((hashOf_eq_zero hc hs' hw').1 he.symm).symm
  | leaf K v =>
    intro p t' hw hw' hf hf' hs hs' he
    cases t' with
    | hash h => exact absurd rfl (hf' h)
    | empty => exact absurd he (hashOf_ne hc hs hw (by simp))
    | node l r =>
      have := hc.inj' he hs.1 hs'.1
      have := congrArg (fun n => n.c.k0) this
      simp [leafNd, Key.one, Key.zero] at this
    | leaf K' v' =>
      have h1 := hc.inj' he hs.1 hs'.1
      have hl := congrArg Nd.l h1
      have hr : H (valNode v) = H (valNode v') := congrArg Nd.r h1
      have hv := valNode_inj (hc.inj' hr hs.2 hs'.2)
      have hlen : p.length ≤ 256 := by have := hw.2.2.length_le; rwa [split_length] at this
      have e1 := C19_join K hw.1 p.length hlen
      have e2 := C19_join K' hw'.1 p.length hlen
      rw [← List.prefix_iff_eq_take.1 hw.2.2] at e1
      rw [← List.prefix_iff_eq_take.1 hw'.2.2] at e2
      have hl' : K.removeBits p.length = K'.removeBits p.length := hl
      rw [← e1, ← e2, hl', hv]
  | node l r ihl ihr =>
    intro p t' hw hw' hf hf' hs hs' he
    cases t' with
    | hash h => exact absurd rfl (hf' h)
    | empty => exact absurd he (hashOf_ne hc hs hw (by simp))
    | leaf K v =>
      have := hc.inj' he hs.1 hs'.1
      have := congrArg (fun n => n.c.k0) this
      simp [leafNd, Key.one, Key.zero] at this
    | node l' r' =>
      have h1 := hc.inj' he hs.1 hs'.1
      have hl := congrArg Nd.l h1
      have hr := congrArg Nd.r h1
      have q : ∀ b, p.length + 1 = (p ++ [b]).length := fun b => by simp
      have e1 := ihl hw.2.1 hw'.2.1 (fun h hh => hf h (.inl hh)) (fun h hh => hf' h (.inl hh))
        (by rw [← q]; exact hs.2.1) (by rw [← q]; exact hs'.2.1) (by rw [← q]; exact hl)
      have e2 := ihr hw.2.2.1 hw'.2.2.1 (fun h hh => hf h (.inr hh)) (fun h hh => hf' h (.inr hh))
        (by rw [← q]; exact hs.2.2) (by rw [← q]; exact hs'.2.2) (by rw [← q]; exact hr)
      rw [e1, e2]

/-- **C18**. Conversely, without collisions among the nodes of the two trees, different final maps have
different roots. -/
theorem C18_root_binding {ops ops' : List Op} {s s' : Smt} (hv : ∀ op, op ∈ ops → op.key.Valid)
    (hv' : ∀ op, op ∈ ops' → op.key.Valid) (hr : run H .empty ops = .ok s) (hr' : run H .empty ops' = .ok s')
    (hc : NoColl (s.db ++ s'.db)) (h : s.root = s'.root) :
    ∀ K, lastVal (fun _ => 0) ops K = lastVal (fun _ => 0) ops' K := by
  obtain ⟨t, hi, hf, hh⟩ := history hv hr (hc.mono (fun e he => List.mem_append_left _ he))
  obtain ⟨t', hi', hf', hh'⟩ := history hv' hr' (hc.mono (fun e he => List.mem_append_right _ he))
  have : t = t' := hashOf_inj (H := H) hc (p := []) hi.wf hi'.wf hf hf'
    (hi.stored.mono (fun e he => List.mem_append_left _ he))
    (hi'.stored.mono (fun e he => List.mem_append_right _ he)) (by
      show hashOf H 0 t = hashOf H 0 t'
      rw [← hi.root, ← hi'.root, h])
  subst this
  intro K
  by_cases h0 : lastVal (fun _ => 0) ops K = 0
  · by_cases h1 : lastVal (fun _ => 0) ops' K = 0
    · rw [h0, h1]
    · have := (hh K _).1 ((hh' K _).2 ⟨h1, rfl⟩)
      exact this.2
  · have := (hh' K _).1 ((hh K _).2 ⟨h0, rfl⟩)
    exact this.2.symm

/-! ## C17 -/

/-- What the documentation of `get` promises for absent keys. -/
def C17_statement (H : Nd → Key) : Prop :=
  ∀ (ops : List Op) (s : Smt), (∀ op, op ∈ ops → op.key.Valid) → run H .empty ops = .ok s → NoColl s.db →
    ∀ K, K.Valid → lastVal (fun _ => 0) ops K = 0 → s.get K = .ok 0

/-- **C17** is false: `get` panics on the empty tree, for every key and whatever the hash function. -/
theorem C17_violated_empty_tree (K : Key) : Smt.empty.get K = .error .unreachable ∧ ¬ C17_statement H := by
  have hg : ∀ K, Smt.empty.get K = .error .unreachable := fun K => by
    unfold Smt.get
    cases K.split <;> simp [Smt.empty, getLoop]
  refine ⟨hg K, fun h => ?_⟩
  have := h [] .empty (by simp) rfl ⟨by simp [Smt.empty], by simp [Smt.empty]⟩ .zero (by simp [Key.Valid, Key.zero]) rfl
  rw [hg] at this
  cases this

theorem members {t : T} : ∀ {p : List Bool}, t.WF p → (∀ h, ¬ t.HashIn h) →
    (t ≠ .empty → ∃ K v, t.Mem K v) ∧ (¬ t.Light → ∃ K v K' v', K ≠ K' ∧ t.Mem K v ∧ t.Mem K' v') := by
  induction t with
  | empty => intro p _ _; exact ⟨fun h => absurd rfl h, fun h => absurd trivial h⟩
  | leaf K v => intro p _ _; exact ⟨fun _ => ⟨K, v, rfl, rfl⟩, fun h => absurd trivial h⟩
  | hash h => intro p _ hf; exact absurd rfl (hf h)
  | node l r ihl ihr =>
    intro p hw hf
    have il := ihl hw.2.1 (fun h hh => hf h (.inl hh))
    have ir := ihr hw.2.2.1 (fun h hh => hf h (.inr hh))
    have two : ∃ K v K' v', K ≠ K' ∧ (T.node l r).Mem K v ∧ (T.node l r).Mem K' v' := by
      by_cases hl : l = .empty
      · obtain ⟨K, v, K', v', h1, h2, h3⟩ := ir.2 (fun h => hw.2.2.2.1 ⟨hl, h⟩)
        exact ⟨K, v, K', v', h1, .inr h2, .inr h3⟩
      · by_cases hr : r = .empty
        · obtain ⟨K, v, K', v', h1, h2, h3⟩ := il.2 (fun h => hw.2.2.2.2 ⟨hr, h⟩)
          exact ⟨K, v, K', v', h1, .inl h2, .inl h3⟩
        · obtain ⟨K, v, h1⟩ := il.1 hl
          obtain ⟨K', v', h2⟩ := ir.1 hr
          refine ⟨K, v, K', v', ?_, .inl h1, .inr h2⟩
          rintro rfl
          exact absurd (prefix_snoc_inj (mem_path hw.2.1 h1).1 (mem_path hw.2.2.1 h2).1) (by decide)
    obtain ⟨K, v, K', v', h1, h2, h3⟩ := two
    exact ⟨fun _ => ⟨K, v, h2⟩, fun _ => ⟨K, v, K', v', h1, h2, h3⟩⟩

theorem take_of_prefix {c : Ctx} {K K' : Key} {n : Nat} (hn : c.length ≤ n) (hp : path c <+: K.split)
    (h : K'.split.take n = K.split.take n) : path c <+: K'.split := by
  have h1 : path c <+: K.split.take n := by
    rw [List.prefix_take_iff]
    exact ⟨hp, by rw [path_length]; exact hn⟩
  rw [← h] at h1
  exact h1.trans (List.take_prefix _ _)

/-- **C17** (the part that holds, with the exact guard). `get` of an absent key returns 0 exactly when
some prefix of its path is shared with exactly one key of the map; otherwise it panics. -/
theorem C17_absent_partial {ops : List Op} {s : Smt} (hv : ∀ op, op ∈ ops → op.key.Valid)
    (hr : run H .empty ops = .ok s) (hc : NoColl s.db) (K : Key) (h0 : lastVal (fun _ => 0) ops K = 0) :
    (s.get K = .ok 0 ∨ s.get K = .error .unreachable) ∧
    (s.get K = .ok 0 ↔ ∃ n, n ≤ 256 ∧ ∃ K', (lastVal (fun _ => 0) ops K' ≠ 0 ∧ K'.split.take n = K.split.take n) ∧
      ∀ K'', lastVal (fun _ => 0) ops K'' ≠ 0 → K''.split.take n = K.split.take n → K'' = K') := by
  obtain ⟨t, hi, hf, hh⟩ := history hv hr hc
  obtain ⟨c, u, h1, h2, h3⟩ := get_spec hc hi K
  have hwp := wf_plug.1 (h1.symm ▸ hi.wf)
  have hkv : s.kv K = none := by
    cases hk : s.kv K with
    | none => rfl
    | some v => exact absurd ((hh K v).1 ((hi.kv K v).1 hk)).2 (fun h => by
        have := ((hh K v).1 ((hi.kv K v).1 hk)).1
        exact this (h.symm.trans h0))
  have pres : ∀ {K'}, lastVal (fun _ => 0) ops K' ≠ 0 → path c <+: K'.split → ∃ v, u.Mem K' v := by
    intro K' hK' hp
    have := (hh K' _).2 ⟨hK', rfl⟩
    rw [← h1, mem_plug] at this
    rcases this with h | h
    · exact ⟨_, h⟩
    · exact absurd h (off_path hwp.1 hp)
  have abs : ∀ {v}, ¬ u.Mem K v := by
    intro v hm
    have : t.Mem K v := by rw [← h1, mem_plug]; exact .inl hm
    have := (hh K v).1 this
    exact this.1 (this.2.symm.trans h0)
  cases u with
  | node l r => exact h3.elim
  | hash h => exact absurd (by rw [← h1]; exact hashIn_plug rfl) (hf h)
  | leaf K2 v2 =>
    have hne : K2 ≠ K := fun h => abs (v := v2) ⟨h, rfl⟩
    have h3 : _ = _ := h3
    rw [if_neg hne, hkv] at h3
    simp at h3
    refine ⟨.inl h3, fun _ => ?_, fun _ => h3⟩
    have hm2 : t.Mem K2 v2 := by rw [← h1, mem_plug]; exact .inl ⟨rfl, rfl⟩
    have hl2 := (hh K2 v2).1 hm2
    have hlen := ctx_le h2
    refine ⟨c.length, hlen, K2, ⟨by rw [hl2.2]; exact hl2.1, ?_⟩, ?_⟩
    · rw [← path_eq_take h2, ← path_eq_take hwp.2.1.2.2]
    · intro K'' hK'' htake
      obtain ⟨v, hm⟩ := pres hK'' (take_of_prefix (Nat.le_refl _) h2 htake)
      exact hm.1.symm
  | empty =>
    have h3 : _ = _ := h3
    refine ⟨.inr h3, fun h => by rw [h3] at h; (cases h), ?_⟩
    rintro ⟨n, hn, K', ⟨hK', ht⟩, huniq⟩
    exfalso
    by_cases hcn : c.length ≤ n
    · obtain ⟨v, hm⟩ := pres hK' (take_of_prefix hcn h2 ht)
      exact hm
    · -- the node at depth `n`
      let a := c.take (c.length - n)
      let c' := c.drop (c.length - n)
      have hac : a ++ c' = c := List.take_append_drop _ _
      have hc'len : c'.length = n := by
        show (c.drop _).length = n
        rw [List.length_drop]; omega
      have hane : ∃ e a', a = e :: a' := by
        cases ha : a with
        | nil =>
          have := congrArg List.length ha
          rw [show a = c.take (c.length - n) from rfl, List.length_take] at this
          simp at this; omega
        | cons e a' => exact ⟨e, a', rfl⟩
      have hheavy : ∀ (a : Ctx) (u : T), (∃ e a', a = e :: a') → ¬ (plug a u).Light := by
        intro a
        induction a with
        | nil => rintro u ⟨e, a', h⟩; cases h
        | cons e a ih =>
          rintro u -
          obtain ⟨b, s⟩ := e
          rw [plug]
          cases a with
          | nil => exact mkNode_light
          | cons e' a => exact ih _ ⟨e', a, rfl⟩
      have hpl : plug c' (plug a .empty) = t := by rw [← plug_append, hac]; exact h1
      have hwp' := wf_plug.1 (hpl.symm ▸ hi.wf)
      have hfn : ∀ h, ¬ (plug a T.empty).HashIn h := fun h hh => hf h (by rw [← hpl]; exact hashIn_plug hh)
      obtain ⟨K1, v1, K2, v2, hne, m1, m2⟩ := (members hwp'.2.1 hfn).2 (hheavy a _ hane)
      have hpc' : path c' <+: K.split := by
        have : path c' <+: path c := by rw [← hac, path_append]; exact List.prefix_append _ _
        exact this.trans h2
      have conc : ∀ K1 v1, (plug a T.empty).Mem K1 v1 → K1 = K' := by
        intro K1 v1 m1
        have hl := (hh K1 v1).1 (by rw [← hpl, mem_plug]; exact .inl m1)
        refine huniq K1 (by rw [hl.2]; exact hl.1) ?_
        rw [← hc'len, ← path_eq_take hpc', ← path_eq_take (mem_path hwp'.2.1 m1).1]
      exact hne ((conc _ _ m1).trans (conc _ _ m2).symm)

end

/-! ## Non-vacuity -/

/-- A toy hash function. -/
def toyH (n : Nd) : Key :=
  ⟨(1 + n.l.k0 * 3 + n.l.k1 * 1009 + n.l.k2 * 100003 + n.l.k3 * 7 ^ 9 + n.r.k0 * 11 ^ 7 + n.r.k1 * 13 ^ 8 + n.r.k2 * 17 ^ 5 +
    n.r.k3 * 19 ^ 6 + n.c.k0 * 23 ^ 7) % (2 ^ 61 - 1), n.l.k0 % 1000003, n.r.k0 % 1000003, 7⟩

/-- Executable check of `NoColl`. -/
def noCollB (db : Db) : Bool :=
  db.all (fun e => decide (e.1 ≠ .zero) && db.all (fun e' => !decide (e.1 = e'.1) || decide (e.2 = e'.2)))

theorem noCollB_sound {db : Db} (h : noCollB db = true) : NoColl db := by
  rw [noCollB, List.all_eq_true] at h
  constructor
  · intro k n m h1 h2
    have := h _ h1
    rw [Bool.and_eq_true, List.all_eq_true] at this
    have := this.2 _ h2
    simpa using this
  · intro n hn
    have := h _ hn
    rw [Bool.and_eq_true] at this
    simp at this

/-- Four keys: two share five path bits, one is overwritten and one is removed again. -/
def demoOps : List Op :=
  [.set ⟨5, 0, 0, 1⟩ 10, .set ⟨7, 0, 0, 1⟩ 11, .set ⟨5, 1, 0, 1⟩ 12, .set ⟨4, 3, 0, 1⟩ 14, .delete ⟨5, 1, 0, 1⟩,
    .set ⟨7, 0, 0, 1⟩ (2 ^ 200)]

/-- The hypotheses of the theorems are met, with absent keys of both kinds. -/
example : (match run toyH .empty demoOps with
    | .ok s => noCollB s.db && (s.get ⟨7, 0, 0, 1⟩ matches .ok _) && (s.get ⟨4, 5, 6, 7⟩ matches .ok _) &&
        (s.get ⟨0, 0, 0, 0⟩ matches .ok _) && (s.get ⟨5, 1, 0, 1⟩ matches .error .unreachable)
    | .error _ => false) = true ∧ ∀ op, op ∈ demoOps → op.key.Valid := by
  refine ⟨by decide +kernel, ?_⟩
  simp [demoOps, Op.key, Key.Valid]

end Verif.Smt
