import Verif.Mpt.Delete
/-! Histories of operations, and `get` on canonical tries. -/
namespace Verif.Mpt

/-- Running a history of `PartialTrie::insert` / `PartialTrie::delete` calls
(`mpt_trie/src/partial_trie.rs:59-90`). -/
def step (s : Strategy) (t : Node) : Op → Except Fault Node
  | .ins k v => insert t k (.val v)
  | .del k => (delete s t k).map (·.1)

def runFrom (s : Strategy) (t : Node) : List Op → Except Fault Node
  | [] => .ok t
  | op :: ops =>
    match step s t op with
    | .ok t' => runFrom s t' ops
    | .error f => .error f

/-- A history starting from the empty trie. -/
def run (s : Strategy) (ops : List Op) : Except Fault Node := runFrom s .empty ops

theorem get_spec {t k} (hw : WF t) (hc : Compat t k)
    (hl : ∀ k', lookup t k' ≠ none → k'.length ≤ k.length) :
    get t k = .ok (match lookup t k with | some (.val v) => some v | _ => none) := by
  induction t generalizing k with
  | empty => simp [get]
  | hash x => simp only [get, lookup]; split <;> simp_all
  | leaf n v =>
    simp only [get, lookup]
    by_cases hid : ident n k = true
    · have := hc n (by simp [lookup]) ((ident_iff _ _).1 hid)
      simp [this, (ident_iff k k).2 (.inl List.prefix_rfl)]
    · have : ¬ k = n := fun h => hid ((ident_iff _ _).2 (.inl (h ▸ List.prefix_rfl)))
      simp [this, hid]
  | branch c v ih =>
    cases k with
    | nil => exact absurd hc (not_compat_branch_nil hw)
    | cons n k =>
      simp only [get, lookup]
      refine ih n (hw.2.1 n) hc.branch (fun k' hk' => ?_)
      have := hl (n :: k') (by simpa [lookup_branch_cons] using hk')
      simpa using this
  | ext n c ih =>
    have hne : c.isEmpty = false := by
      rcases hw.2.1 with hb | hb <;> cases c <;> simp_all [Node.isBranch, Node.isHash, Node.isEmpty]
    obtain ⟨k0, e0, hk0⟩ := exists_lookup hw.2.2 hne
    have hlen := hl (n ++ k0) (by rw [lookup_ext_append, hk0]; simp)
    simp only [List.length_append] at hlen
    have h1 : ¬ k.length < n.length := by omega
    simp only [get, h1, if_false, lookup]
    by_cases hp : n <+: k
    · rw [if_pos ((ident_take n k (by omega)).2 hp), if_pos hp]
      obtain ⟨r, rfl⟩ := hp
      simp only [List.drop_left]
      refine ih hw.2.2 hc.ext (fun k' hk' => ?_)
      have := hl (n ++ k') (by simpa [lookup_ext_append] using hk')
      simpa using this
    · have : ¬ ident (k.take n.length) n = true := fun h => hp ((ident_take n k (by omega)).1 h)
      simp [this, hp]

/-- The invariant of histories: canonical, contents = abstract map, keys in `K`. -/
structure Rel (K : Key → Prop) (t : Node) (m : Map) : Prop where
  wf : WF t
  look : ∀ k, lookup t k = (m k).map .val
  keys : ∀ k, m k ≠ none → K k

theorem Rel.compat {K t m k} (h : Rel K t m) (hK : PrefixFree K) (hk : K k) : Compat t k := by
  intro k' hk' hp
  have : K k' := h.keys k' (by
    rw [h.look] at hk'
    intro h0; rw [h0] at hk'; simp at hk')
  rcases hp with hp | hp
  · exact hK _ _ this hk hp
  · exact (hK _ _ hk this hp).symm

theorem Rel.bounded {K t m b} (h : Rel K t m) (hb : ∀ k, K k → k.length ≤ b) : Bounded b t := by
  intro k hk
  refine hb k (h.keys k ?_)
  rw [h.look] at hk
  intro h0; rw [h0] at hk; simp at hk

theorem Rel.insert {K t m k v} (h : Rel K t m) (hK : PrefixFree K) (hk : K k) :
    ∃ t', Mpt.insert t k (.val v) = .ok t' ∧ Rel K t' (Op.apply m (.ins k v)) := by
  have hc := h.compat hK hk
  cases hi : insertRec t k (.val v) with
  | error f =>
    rcases insertRec_error h.wf hc hi with ⟨x, hx, -⟩ | ⟨x, w, hx, h', -⟩
    · rw [h.look] at hx
      cases hm : m k <;> simp [hm] at hx
    · simp at h'
  | ok t' =>
    refine ⟨t', hi, (insertRec_wf h.wf hc hi).1, fun k' => ?_, fun k' hk' => ?_⟩
    · rw [lookup_insertRec hi (hc.insOk h.wf _)]
      simp only [Op.apply]
      split
      · rfl
      · exact h.look k'
    · simp only [Op.apply] at hk'
      split at hk'
      · rename_i he; exact he ▸ hk
      · exact h.keys k' hk'

theorem Rel.delete {K t m k s} (h : Rel K t m) (hK : PrefixFree K) (hb : ∀ k, K k → k.length ≤ 64)
    (hk : K k) :
    ∃ t', Mpt.delete s t k = .ok (t', m k) ∧ Rel K t' (Op.apply m (.del k)) := by
  have hc := h.compat hK hk
  obtain ⟨h1, h2⟩ := delete_spec (s := s) h.wf hc (h.bounded hb)
  have hnh : ∀ k x, lookup t k ≠ some (.hash x) := by
    intro k x hx
    rw [h.look] at hx
    cases hm : m k <;> simp [hm] at hx
  cases hd : Mpt.delete s t k with
  | error f =>
    rcases h1 f hd with ⟨x, hx, -⟩ | ⟨-, k', x, hx⟩ <;> exact absurd hx (hnh _ _)
  | ok p =>
    obtain ⟨t', r⟩ := p
    obtain ⟨j1, j2, j3⟩ := h2 t' r hd
    have hr : r = m k := by
      rw [h.look] at j1
      cases hm : m k <;> cases r <;> simp [hm] at j1 ⊢
      exact j1.symm
    subst hr
    refine ⟨t', rfl, j2, fun k' => ?_, fun k' hk' => ?_⟩
    · rw [j3]
      simp only [Op.apply]
      split
      · rfl
      · exact h.look k'
    · simp only [Op.apply] at hk'
      split at hk'
      · simp at hk'
      · exact h.keys k' hk'

theorem Rel.runFrom {K t m s} (h : Rel K t m) (hK : PrefixFree K) (hb : ∀ k, K k → k.length ≤ 64)
    (ops : List Op) (hops : ∀ op ∈ ops, K op.key) :
    ∃ t', Mpt.runFrom s t ops = .ok t' ∧ Rel K t' (ops.foldl Op.apply m) := by
  induction ops generalizing t m with
  | nil => exact ⟨t, rfl, h⟩
  | cons op ops ih =>
    have hk : K op.key := hops op (by simp)
    have hrest : ∀ op ∈ ops, K op.key := fun o ho => hops o (by simp [ho])
    cases op with
    | ins k v =>
      obtain ⟨t', h1, h2⟩ := h.insert (k := k) (v := v) hK hk
      obtain ⟨t'', h3, h4⟩ := ih h2 hrest
      exact ⟨t'', by simp [Mpt.runFrom, step, h1, h3], h4⟩
    | del k =>
      obtain ⟨t', h1, h2⟩ := h.delete (k := k) (s := s) hK hb hk
      obtain ⟨t'', h3, h4⟩ := ih h2 hrest
      exact ⟨t'', by simp [Mpt.runFrom, step, h1, h3, Except.map], h4⟩

theorem Rel.init (K) : Rel K .empty (fun _ => none) :=
  ⟨trivial, fun k => by simp, fun k h => absurd rfl h⟩

theorem rel_run {K s ops} (hK : PrefixFree K) (hb : ∀ k, K k → k.length ≤ 64)
    (hops : ∀ op ∈ ops, K op.key) : ∃ t, run s ops = .ok t ∧ Rel K t (specMap ops) :=
  (Rel.init K).runFrom hK hb ops hops

theorem prefixFree_length (L : Nat) : PrefixFree (fun k => k.length = L) := by
  intro a b ha hb hp
  exact hp.eq_of_length (ha.trans hb.symm)

end Verif.Mpt
