import Verif.Smt.Tree
/-!
# What `set` does to the tree
-/
namespace Verif.Smt

section
variable {H : Nd → Key}

theorem path_eq_take {c : Ctx} {K : Key} (h : path c <+: K.split) : path c = K.split.take c.length := by
  have := List.prefix_iff_eq_take.1 h
  rwa [path_length] at this

theorem ctx_le {c : Ctx} {K : Key} (h : path c <+: K.split) : c.length ≤ 256 := by
  have := h.length_le
  rwa [path_length, split_length] at this

theorem join_path {c : Ctx} {K : Key} (hK : K.Valid) (h : path c <+: K.split) :
    Key.join (path c) (K.removeBits c.length) = K := by
  rw [path_eq_take h]
  exact C19_join K hK _ (ctx_le h)

/-- The result of the search. -/
def Found (db : Db) (c : Ctx) (res : Except Fault (Stack × List Bool × Option (Key × Key × Key))) : T → Prop
  | .empty => res = .ok (stackOf H c .empty, path c, none)
  | .leaf K' v' => res = .ok (stackOf H c (.leaf K' v'), path c,
      some (K', K'.removeBits c.length, H (valNode v')))
  | .hash h => db.get h = none → res = .error .unwrapNone
  | .node _ _ => False

theorem descend_spec {db : Db} (hc : NoColl db) {K : Key} (t : T) : ∀ (bits : List Bool) (ctx : Ctx),
    (plug ctx t).WF [] → Stored H db 0 (plug ctx t) → path ctx ++ bits = K.split →
    ∃ c u, plug c u = plug ctx t ∧ path c <+: K.split ∧
      Found (H := H) db c (descend db bits (path ctx) (stackOf H ctx t) (hashOf H ctx.length t)) u := by
  induction t with
  | empty =>
    intro bits ctx _ _ hb
    refine ⟨ctx, .empty, rfl, ⟨bits, hb⟩, ?_⟩
    cases bits <;> simp [Found, descend, hashOf]
  | leaf K' v' =>
    intro bits ctx hw hs hb
    refine ⟨ctx, .leaf K' v', rfl, ⟨bits, hb⟩, ?_⟩
    have hst := (stored_plug hs).1
    have hne : H (leafNd H ctx.length K' v') ≠ .zero := hc.ne hst.1
    have hwl := (wf_plug.1 hw).2.1
    have h1 := hc.get hst.1
    have h2 := hc.get hst.2
    have hl : (leafNd H ctx.length K' v').isLeaf = true := rfl
    have hj : Key.join (path ctx) (leafNd H ctx.length K' v').l = K' := join_path hwl.1 hwl.2.2
    have hr : (leafNd H ctx.length K' v').r = H (valNode v') := rfl
    have : descend db bits (path ctx) (stackOf H ctx (.leaf K' v')) (H (leafNd H ctx.length K' v')) =
        .ok (stackOf H ctx (.leaf K' v'), path ctx, some (K', K'.removeBits ctx.length, H (valNode v'))) := by
      cases bits <;>
      · rw [descend, if_neg hne, h1]
        simp only [hl, if_true, hr, h2, hj]
        rfl
    exact this
  | hash h =>
    intro bits ctx hw hs hb
    refine ⟨ctx, .hash h, rfl, ⟨bits, hb⟩, ?_⟩
    have hne : h ≠ .zero := (wf_plug.1 hw).2.1
    intro hn
    cases bits <;> simp [descend, hashOf, hne, hn]
  | node l r ihl ihr =>
    intro bits ctx hw hs hb
    have hst := (stored_plug hs).1
    have hwl := (wf_plug.1 hw).2.1
    have hlen := congrArg List.length hb
    rw [List.length_append, split_length] at hlen
    cases bits with
    | nil =>
      have := hwl.1
      rw [List.length_nil] at hlen
      omega
    | cons b bs =>
      have h1 := hc.get hst.1
      have hne := hc.ne hst.1
      have hb' : ∀ s, path ((b, s) :: ctx) ++ bs = K.split := by
        intro s; rw [path_cons, List.append_assoc]; exact hb
      cases b with
      | false =>
        obtain ⟨c, u, e1, e2, e3⟩ := ihl bs ((false, r) :: ctx) hw hs (hb' r)
        refine ⟨c, u, e1, e2, ?_⟩
        rw [descend, if_neg hne, h1]
        rw [path_cons] at e3
        exact e3
      | true =>
        obtain ⟨c, u, e1, e2, e3⟩ := ihr bs ((true, l) :: ctx) hw hs (hb' l)
        refine ⟨c, u, e1, e2, ?_⟩
        rw [descend, if_neg hne, h1]
        rw [path_cons] at e3
        exact e3

/-! ## Splitting a leaf -/

theorem firstDiff_spec : ∀ {as bs : List Bool}, as.length = bs.length → as ≠ bs →
    ∃ m, firstDiff as bs = .ok m ∧ m < as.length ∧ as.take m = bs.take m ∧ as.getD m false ≠ bs.getD m false
  | [], [], _, h => absurd rfl h
  | a :: as, [], h, _ => by simp at h
  | [], b :: bs, h, _ => by simp at h
  | a :: as, b :: bs, hl, hne => by
    by_cases hab : a = b
    · subst hab
      obtain ⟨m, h1, h2, h3, h4⟩ := firstDiff_spec (as := as) (bs := bs) (by simpa using hl)
        (fun h => hne (by rw [h]))
      refine ⟨m + 1, ?_, by simpa using h2, by simp [h3], by simpa using h4⟩
      simp [firstDiff, h1, Except.map]
    · exact ⟨0, by simp [firstDiff, hab], by simp, rfl, by simpa using hab⟩

/-- The positions of a chain of nodes with one child. -/
def chainCtx (bits : List Bool) : Ctx := bits.map (fun b => (b, T.empty))

theorem plug_append (a c : Ctx) (u : T) : plug (a ++ c) u = plug c (plug a u) := by
  induction a generalizing u with
  | nil => rfl
  | cons e a ih => obtain ⟨b, s⟩ := e; exact ih _

theorem path_append (a c : Ctx) : path (a ++ c) = path c ++ path a := by simp [path]

theorem path_chainCtx (bits : List Bool) : path (chainCtx bits) = bits.reverse := by
  simp [path, chainCtx, Function.comp_def]

theorem chain_spec {d : Nat} (bits : List Bool) {t : T} {db : Db} (hs : Stored H db (d + bits.length) t) :
    ∃ db', chain H db bits (hashOf H (d + bits.length) t) = (db', hashOf H d (plug (chainCtx bits) t)) ∧
      (∀ e, e ∈ db → e ∈ db') ∧ Stored H db' d (plug (chainCtx bits) t) := by
  induction bits generalizing t db with
  | nil => exact ⟨db, rfl, fun _ h => h, hs⟩
  | cons b bs ih =>
    have key : ∃ db', (if b then hash0 H db .zero (hashOf H (d + bs.length + 1) t)
        else hash0 H db (hashOf H (d + bs.length + 1) t) .zero) =
          (db', hashOf H (d + bs.length) (mkNode b .empty t)) ∧
        (∀ e, e ∈ db → e ∈ db') ∧ Stored H db' (d + bs.length) (mkNode b .empty t) := by
      cases b with
      | false =>
        exact ⟨_, rfl, fun _ h => List.mem_cons_of_mem _ h, List.mem_cons_self,
          hs.mono (fun _ h => List.mem_cons_of_mem _ h), trivial⟩
      | true =>
        exact ⟨_, rfl, fun _ h => List.mem_cons_of_mem _ h, List.mem_cons_self, trivial,
          hs.mono (fun _ h => List.mem_cons_of_mem _ h)⟩
    obtain ⟨db1, e1, e2, e3⟩ := key
    obtain ⟨db2, e4, e5, e6⟩ := ih e3
    refine ⟨db2, ?_, fun e he => e5 e (e2 e he), e6⟩
    rw [chain]
    rw [List.length_cons, ← Nat.add_assoc, e1]
    exact e4

theorem mem_chainCtx {bits : List Bool} {K : Key} {v : U256} : ¬ MemC K v (chainCtx bits) := by
  rintro ⟨e, he, hm⟩
  obtain ⟨b, _, rfl⟩ := List.mem_map.1 he
  exact hm

theorem hashAt_chainCtx {bits : List Bool} {q : List Bool} {h : Key} : ¬ HashAtC q h (chainCtx bits) := by
  induction bits with
  | nil => exact id
  | cons b bs ih =>
    rintro (⟨q', -, hu⟩ | hu)
    · simp [T.HashAt] at hu
    · exact ih hu

theorem wfc_append {a c : Ctx} : WFc (a ++ c) → WFc c := by
  induction a with
  | nil => exact id
  | cons e a ih => obtain ⟨b, s⟩ := e; exact fun h => ih h.2.2

theorem wfc_chain {bits : List Bool} {c : Ctx} (hw : WFc c) (hl : bits.length + c.length ≤ 256) :
    WFc (chainCtx bits ++ c) := by
  induction bits with
  | nil => exact hw
  | cons b bs ih =>
    rw [List.length_cons] at hl
    refine ⟨?_, trivial, ih (by omega)⟩
    show (chainCtx bs ++ c).length < 256
    rw [List.length_append, chainCtx, List.length_map]
    omega

theorem getD_take_append {l : List Bool} {m : Nat} (h : m < l.length) : l.take m ++ [l.getD m false] <+: l := by
  have h1 : l.getD m false = l[m] := by simp [List.getD, List.getElem?_eq_getElem h]
  rw [h1, List.take_append_getElem h]
  exact List.take_prefix _ _

theorem bool_eq_not {a b : Bool} (h : a ≠ b) : b = !a := by
  revert h; cases a <;> cases b <;> decide

/-- Inserting beside another leaf. -/
theorem splitLeaf_spec {db : Db} {c : Ctx} {K K' : Key} {v v' : U256} {root : Key} {st : Stack}
    (hK : K.Valid) (hv : v ≠ 0) (hp : path c <+: K.split) (hne : K ≠ K')
    (hw : WFc c) (hwl : (T.leaf K' v').WF (path c)) (hs : Stored H db c.length (.leaf K' v'))
    (hsc : StoredC H db c) (hsib : Sib H c st) :
    ∃ db1 st1 root1 db2 u, splitLeaf H db K v st K' (H (valNode v')) root = .ok (db1, st1, root1) ∧
      finish H db1 st1 root1 = (db2, hashOf H 0 (plug c u)) ∧ (∀ e, e ∈ db → e ∈ db2) ∧
      Stored H db2 0 (plug c u) ∧ (plug c u).WF [] ∧ (∀ q h, ¬ u.HashAt q h) ∧
      ∀ K'' v'', u.Mem K'' v'' ↔ (K'' = K ∧ v'' = v) ∨ (K'' = K' ∧ v'' = v') := by
  have hl : st.length = c.length := sib_length hsib
  have hc256 := ctx_le hp
  have htk : K.split.take c.length = K'.split.take c.length := by
    rw [← path_eq_take hp, ← path_eq_take hwl.2.2]
  have hdne : K.split.drop c.length ≠ K'.split.drop c.length := by
    intro h
    apply hne
    apply C19_split_injective K K' hK hwl.1
    rw [← List.take_append_drop c.length K.split, htk, h, List.take_append_drop]
  obtain ⟨m, hm1, hm2, hm3, hm4⟩ := firstDiff_spec (as := K.split.drop c.length) (bs := K'.split.drop c.length)
    (by simp [split_length]) hdne
  have hmlen : m < 256 - c.length := by simpa [split_length] using hm2
  have hmlen' : m < (K'.split.drop c.length).length := by simpa [split_length] using hm2
  generalize hks : K.split.drop c.length = ks at hm1 hm2 hm3 hm4
  generalize hks' : K'.split.drop c.length = ks' at hm1 hm3 hm4 hmlen'
  generalize hb : ks.getD m false = b at hm4
  generalize hbb : ks'.getD m false = bb at hm4
  have hbb' : bb = !b := bool_eq_not hm4
  -- the tree
  let c2 : Ctx := chainCtx (ks.take m).reverse
  have hc2len : (ks.take m).reverse.length = m := by
    rw [List.length_reverse, List.length_take]; omega
  let u : T := plug c2 (mkNode b (.leaf K' v') (.leaf K v))
  have hpu : path (c2 ++ c) = path c ++ ks.take m := by
    rw [path_append, path_chainCtx, List.reverse_reverse]
  have hKp : path (c2 ++ c) ++ [b] <+: K.split := by
    rw [hpu, path_eq_take hp]
    conv => rhs; rw [← List.take_append_drop c.length K.split, hks]
    rw [List.append_assoc, List.prefix_append_right_inj, ← hb]
    exact getD_take_append hm2
  have hKp' : path (c2 ++ c) ++ [!b] <+: K'.split := by
    rw [hpu, path_eq_take hwl.2.2, hm3, ← hbb', ← hbb]
    conv => rhs; rw [← List.take_append_drop c.length K'.split, hks']
    rw [List.append_assoc, List.prefix_append_right_inj]
    exact getD_take_append hmlen'
  have hwfc2 : WFc (c2 ++ c) := wfc_chain hw (by rw [hc2len]; omega)
  have hc2c : (c2 ++ c).length = c.length + m := by
    show ((ks.take m).reverse.map _ ++ c).length = _
    rw [List.length_append, List.length_map, hc2len]; omega
  have hwu : (plug c u).WF [] := by
    show (plug c (plug c2 _)).WF []
    rw [← plug_append]
    show (plug ((b, .leaf K' v') :: (c2 ++ c)) (.leaf K v)).WF []
    rw [wf_plug]
    refine ⟨⟨by rw [hc2c]; omega, ⟨hwl.1, hwl.2.1, hKp'⟩, hwfc2⟩, ⟨hK, hv, ?_⟩, ?_⟩
    · rw [path_cons]; exact hKp
    · constructor
      · rintro ⟨h, -⟩; cases h
      · rintro ⟨h, -⟩; cases h
  have hmemu : ∀ K'' v'', u.Mem K'' v'' ↔ (K'' = K ∧ v'' = v) ∨ (K'' = K' ∧ v'' = v') := by
    intro K'' v''
    show (plug c2 _).Mem K'' v'' ↔ _
    rw [mem_plug, mem_mkNode]
    simp only [T.Mem, mem_chainCtx, c2, or_false]
    constructor
    · rintro (⟨rfl, rfl⟩ | ⟨rfl, rfl⟩)
      · exact .inl ⟨rfl, rfl⟩
      · exact .inr ⟨rfl, rfl⟩
    · rintro (⟨rfl, rfl⟩ | ⟨rfl, rfl⟩)
      · exact .inl ⟨rfl, rfl⟩
      · exact .inr ⟨rfl, rfl⟩
  have hhash : ∀ q h, ¬ u.HashAt q h := by
    intro q h hu
    rcases hashAt_plug.1 hu with ⟨q', -, hu⟩ | hu
    · rcases hashAt_mkNode.1 hu with ⟨q, -, hu⟩ | ⟨q, -, hu⟩ <;> simp [T.HashAt] at hu
    · exact hashAt_chainCtx hu
  -- the computation
  let db1 := (hashKeyHash H db (K'.removeBits (c.length + m + 1)) (H (valNode v'))).1
  let db2 := (hashVal H db1 v).1
  let db3 := (hashKeyHash H db2 (K.removeBits (c.length + m + 1)) (H (valNode v))).1
  let nd : Nd := ⟨if b then H (leafNd H (c.length + m + 1) K' v') else H (leafNd H (c.length + m + 1) K v),
    if b then H (leafNd H (c.length + m + 1) K v) else H (leafNd H (c.length + m + 1) K' v'), .zero⟩
  let db4 := (hash0 H db3 nd.l nd.r).1
  have m1 : ∀ e, e ∈ db → e ∈ db1 := fun e he => List.mem_cons_of_mem _ he
  have m2 : ∀ e, e ∈ db1 → e ∈ db2 := fun e he => List.mem_cons_of_mem _ he
  have m3 : ∀ e, e ∈ db2 → e ∈ db3 := fun e he => List.mem_cons_of_mem _ he
  have m4 : ∀ e, e ∈ db3 → e ∈ db4 := fun e he => List.mem_cons_of_mem _ he
  have hin : Stored H db4 (c.length + m) (mkNode b (.leaf K' v') (.leaf K v)) := by
    refine stored_mkNode.2 ⟨?_, ⟨m4 _ (m3 _ (m2 _ List.mem_cons_self)), m4 _ (m3 _ (m2 _ (m1 _ hs.2)))⟩,
      ⟨m4 _ List.mem_cons_self, m4 _ (m3 _ List.mem_cons_self)⟩⟩
    rw [hashOf_mkNode]
    exact List.mem_cons_self
  obtain ⟨db5, g1, g2, g3⟩ := chain_spec (H := H) (d := c.length) (ks.take m).reverse (db := db4)
    (t := mkNode b (.leaf K' v') (.leaf K v)) (by rw [hc2len]; exact hin)
  rw [hc2len] at g1
  have m5 : ∀ e, e ∈ db → e ∈ db5 := fun e he => g2 e (m4 e (m3 e (m2 e (m1 e he))))
  obtain ⟨db6, f1, f2, f3⟩ := place_finish (H := H) (root := root) hsib (hsc.mono m5) (u := u) g3
  refine ⟨db5, _, _, db6, u, ?_, f1, fun e he => f2 e (m5 e he), f3, hwu, hhash, hmemu⟩
  unfold splitLeaf
  simp only [hl, hks, hks', hm1]
  have hnode : (((⟨.zero, .zero, .zero⟩ : Nd).setChild (ks.getD m false) (H (leafNd H (c.length + m + 1) K v))).setChild
      (ks'.getD m false) (H (leafNd H (c.length + m + 1) K' v'))) = nd := by
    rw [hb, hbb, hbb']
    cases b <;> rfl
  have hr2 : H nd = hashOf H (c.length + m) (mkNode b (.leaf K' v') (.leaf K v)) := by
    rw [hashOf_mkNode]; rfl
  have hdb : (hash0 H (hashKeyHash H (hashVal H (hashKeyHash H db (K'.removeBits (c.length + m + 1)) (H (valNode v'))).fst v).fst
      (K.removeBits (c.length + m + 1)) (hashVal H (hashKeyHash H db (K'.removeBits (c.length + m + 1)) (H (valNode v'))).fst v).snd).fst
      nd.l nd.r) = (db4, H nd) := rfl
  have hA : (hashKeyHash H (hashVal H (hashKeyHash H db (K'.removeBits (c.length + m + 1)) (H (valNode v'))).fst v).fst
      (K.removeBits (c.length + m + 1)) (hashVal H (hashKeyHash H db (K'.removeBits (c.length + m + 1)) (H (valNode v'))).fst v).snd).snd
      = H (leafNd H (c.length + m + 1) K v) := rfl
  have hB : (hashKeyHash H db (K'.removeBits (c.length + m + 1)) (H (valNode v'))).snd =
      H (leafNd H (c.length + m + 1) K' v') := rfl
  simp only [hA, hB, hnode, hdb]
  rw [hr2]
  simp only [g1]
  rfl

/-! ## Removing a leaf -/

/-- Drop the levels whose other subtree is empty. -/
def popE : Ctx → Ctx
  | [] => []
  | (b, .empty) :: c => popE c
  | c => c

theorem unique_spec {b : Bool} {x y : Key} (hy : y ≠ .zero) :
    (unique ⟨if b then x else y, if b then y else x, .zero⟩).isSome = true ↔ x = .zero := by
  by_cases hx : x = .zero
  · cases b <;> simp [unique, hx, hy]
  · cases b <;> simp [unique, hx, hy]

theorem popE_spec {db : Db} (hc : NoColl db) : ∀ {c : Ctx} {X : T}, (plug c X).WF [] → Stored H db 0 (plug c X) → X ≠ .empty →
    (∃ Y, popUnique (stackOf H c X) = stackOf H (popE c) Y) ∧ popE c <:+ c ∧
      (∀ e, e ∈ c → e ∈ popE c ∨ e.2 = .empty) ∧ (∀ b s c', popE c = (b, s) :: c' → s ≠ .empty)
  | [], _, _, _, _ => ⟨⟨.empty, rfl⟩, List.suffix_refl _, fun e h => (by cases h), fun _ _ _ h => by cases h⟩
  | (b, s) :: c, X, hw, hs, hX => by
    have hw' : (plug c (mkNode b s X)).WF [] := hw
    have hs' : Stored H db 0 (plug c (mkNode b s X)) := hs
    have hst := stored_mkNode.1 (stored_plug hs').1
    have hwn := wf_mkNode.1 (wf_plug.1 hw').2.1
    have hXz : hashOf H (c.length + 1) X ≠ .zero := hashOf_ne hc hst.2.2 hwn.2.2.1 hX
    have hu := unique_spec (b := b) (x := hashOf H (c.length + 1) s) hXz
    have hsz := hashOf_eq_zero hc hst.2.1 hwn.2.1
    by_cases he : s = .empty
    · subst he
      obtain ⟨⟨Y, h1⟩, h2, h3, h4⟩ := popE_spec hc hw' hs' mkNode_ne
      refine ⟨⟨Y, ?_⟩, h2.trans (List.suffix_cons _ _), ?_, h4⟩
      · rw [stackOf, popUnique, if_pos (hu.2 rfl)]; exact h1
      · intro e he
        rcases List.mem_cons.1 he with rfl | he
        · exact .inr rfl
        · exact h3 e he
    · have hp : popE ((b, s) :: c) = (b, s) :: c := by
        cases s with
        | empty => exact absurd rfl he
        | _ => rfl
      rw [hp]
      refine ⟨⟨X, ?_⟩, List.suffix_refl _, fun e h => .inl h, ?_⟩
      · rw [stackOf, popUnique, if_neg (fun h => he (hsz.1 (hu.1 h)))]
      · intro _ _ _ h; cases h; exact he

theorem popE_hashAt {q : List Bool} {h : Key} {c : Ctx} : HashAtC q h (popE c) ↔ HashAtC q h c := by
  induction c with
  | nil => exact Iff.rfl
  | cons e c ih =>
    obtain ⟨b, s⟩ := e
    cases s with
    | empty =>
      rw [popE, ih, HashAtC]
      simp [T.HashAt]
    | _ => exact Iff.rfl

theorem wfc_suffix {c c' : Ctx} (h : c' <:+ c) (hw : WFc c) : WFc c' := by
  obtain ⟨a, rfl⟩ := h
  exact wfc_append hw

theorem storedC_suffix {db : Db} {c c' : Ctx} (h : c' <:+ c) (hw : StoredC H db c) : StoredC H db c' := by
  obtain ⟨a, rfl⟩ := h
  induction a with
  | nil => exact hw
  | cons e a ih => exact ih hw.2

theorem path_suffix {c c' : Ctx} (h : c' <:+ c) : path c' <+: path c := by
  obtain ⟨a, rfl⟩ := h
  rw [path_append]
  exact List.prefix_append _ _

/-- Removing the leaf found, when the subtree beside it is known. -/
theorem removeFound_spec {db : Db} (hc : NoColl db) {c : Ctx} {K : Key} {v : U256} {root : Key}
    (hw : (plug c (.leaf K v)).WF []) (hs : Stored H db 0 (plug c (.leaf K v))) :
    (∃ db1 st1 root1 db2 t', removeFound H db (stackOf H c (.leaf K v)) (path c) root = .ok (db1, st1, root1) ∧
      finish H db1 st1 root1 = (db2, hashOf H 0 t') ∧ (∀ e, e ∈ db → e ∈ db2) ∧
      Stored H db2 0 t' ∧ t'.WF [] ∧ (∀ q h, t'.HashAt q h ↔ (plug c (.leaf K v)).HashAt q h) ∧
      ∀ K'' v'', t'.Mem K'' v'' ↔ MemC K'' v'' c) ∨
    (∃ b h c', c = (b, .hash h) :: c' ∧ (db.get h = none →
      removeFound H db (stackOf H c (.leaf K v)) (path c) root = .error .unwrapNone)) := by
  cases c with
  | nil =>
    refine .inl ⟨db, [], .zero, db, .empty, rfl, by rw [finish]; rfl, fun _ h => h, trivial, trivial, ?_, ?_⟩
    · intro q h; simp [plug, T.HashAt]
    · intro K'' v''
      simp [T.Mem, MemC]
  | cons e c =>
    obtain ⟨b, s⟩ := e
    have hwp := wf_plug.1 hw
    have hsp := stored_plug hs
    have hwc := hwp.1
    have hws := hwc.2.1
    have hss := hsp.2.1
    have hse : s ≠ .empty := fun h => hwp.2.2.1 ⟨h, trivial⟩
    have hsz : hashOf H (c.length + 1) s ≠ .zero := hashOf_ne hc hss hws hse
    -- the code up to the lookup of the sibling
    have hcode : removeFound H db (stackOf H ((b, s) :: c) (.leaf K v)) (path ((b, s) :: c)) root =
        match db.get (hashOf H (c.length + 1) s) with
        | none => .error .unwrapNone
        | some m =>
          if m.isLeaf then
            match db.get m.r with
            | none => .error .unwrapNone
            | some _ =>
              let insKey := Key.join (path c ++ [!b]) m.l
              let up := popUnique (stackOf H c (mkNode b s (.leaf K v)))
              let (db, h) := hashKeyHash H db (insKey.removeBits up.length) m.r
              let (st, root) := place up root h
              .ok (db, st, root)
          else .ok (db, (b, (⟨if b then hashOf H (c.length + 1) s else .zero,
            if b then .zero else hashOf H (c.length + 1) s, .zero⟩ : Nd)) ::
              stackOf H c (mkNode b s (.leaf K v)), root) := by
      unfold removeFound
      rw [stackOf, path_cons]
      cases b
      · rcases hg : db.get (hashOf H (c.length + 1) s) with _ | m
        · simp [unique, Nd.setChild, hsz, hg]
        · cases hl : m.isLeaf <;> rcases hr : db.get m.r with _ | x <;>
            simp [unique, Nd.setChild, hsz, hg, hl, hr]
      · rcases hg : db.get (hashOf H (c.length + 1) s) with _ | m
        · simp [unique, Nd.setChild, hsz, hg]
        · cases hl : m.isLeaf <;> rcases hr : db.get m.r with _ | x <;>
            simp [unique, Nd.setChild, hsz, hg, hl, hr]
    rw [hcode]
    cases s with
    | empty => exact absurd rfl hse
    | hash h =>
      refine .inr ⟨b, h, c, rfl, ?_⟩
      intro hn
      simp only [hashOf, hn]
    | node l r =>
      left
      have hg := hc.get hss.1
      have hfin := finish_spec (H := H) (c := (b, .node l r) :: c) (u := .empty) (db := db) (root := root)
        (st := (b, (⟨if b then hashOf H (c.length + 1) (.node l r) else .zero,
            if b then .zero else hashOf H (c.length + 1) (.node l r), .zero⟩ : Nd)) ::
              stackOf H c (mkNode b (.node l r) (.leaf K v)))
        ⟨rfl, by cases b <;> rfl, rfl, sib_stackOf⟩ hsp.2 trivial
        (fun b' n st' he => by cases he; cases b <;> rfl) (fun he => by cases he)
      obtain ⟨db2, f1, f2, f3⟩ := hfin
      refine ⟨_, _, _, db2, plug ((b, .node l r) :: c) .empty, ?_, f1, f2, f3, ?_, ?_, ?_⟩
      · simp only [hg]; rfl
      · rw [wf_plug]
        refine ⟨hwc, trivial, ?_, ?_⟩
        · rintro ⟨h, -⟩; cases h
        · rintro ⟨-, h⟩; exact h
      · intro q h; rw [hashAt_plug, hashAt_plug]; simp [T.HashAt]
      · intro K'' v''; rw [mem_plug]; simp [T.Mem]
    | leaf K2 v2 =>
      left
      have hg := hc.get hss.1
      have hg2 := hc.get hss.2
      have hj : Key.join (path c ++ [!b]) (K2.removeBits (c.length + 1)) = K2 := by
        have := join_path (c := (!b, T.empty) :: c) hws.1 (by rw [path_cons]; exact hws.2.2)
        rw [path_cons] at this
        exact this
      have hw' : (plug c (mkNode b (.leaf K2 v2) (.leaf K v))).WF [] := hw
      obtain ⟨⟨Y, p1⟩, p2, p3, p4⟩ := popE_spec hc hw' hs mkNode_ne
      have hlen : (stackOf H (popE c) Y).length = (popE c).length := sib_length sib_stackOf
      have hpre : path (popE c) <+: K2.split :=
        ((path_suffix p2).trans (List.prefix_append _ _)).trans hws.2.2
      let db1 := (hashKeyHash H db (K2.removeBits (popE c).length) (H (valNode v2))).1
      have m1 : ∀ e, e ∈ db → e ∈ db1 := fun e he => List.mem_cons_of_mem _ he
      have hfin := place_finish (H := H) (c := popE c) (st := stackOf H (popE c) Y) (u := .leaf K2 v2) (db := db1)
        (root := root) sib_stackOf ((storedC_suffix p2 hsp.2.2).mono m1)
        ⟨List.mem_cons_self, m1 _ hss.2⟩
      obtain ⟨db2, f1, f2, f3⟩ := hfin
      refine ⟨_, _, _, db2, plug (popE c) (.leaf K2 v2), ?_, f1, fun e he => f2 e (m1 e he), f3, ?_, ?_, ?_⟩
      · have hg' : db.get (hashOf H (c.length + 1) (.leaf K2 v2)) = some (leafNd H (c.length + 1) K2 v2) := hg
        have hl : (leafNd H (c.length + 1) K2 v2).isLeaf = true := rfl
        have hr : (leafNd H (c.length + 1) K2 v2).r = H (valNode v2) := rfl
        have hll : (leafNd H (c.length + 1) K2 v2).l = K2.removeBits (c.length + 1) := rfl
        simp only [hg', hl, if_true, hr, hg2, hll, hj, p1, hlen]
        rfl
      · rw [wf_plug]
        refine ⟨wfc_suffix p2 hwc.2.2, ⟨hws.1, hws.2.1, hpre⟩, ?_⟩
        cases hpc : popE c with
        | nil => trivial
        | cons e c' =>
          obtain ⟨b', s'⟩ := e
          refine ⟨fun h => p4 b' s' c' hpc h.1, fun h => by cases h.1⟩
      · intro q h
        rw [hashAt_plug, hashAt_plug, popE_hashAt, HashAtC]
        simp [T.HashAt]
      · intro K'' v''
        rw [mem_plug]
        constructor
        · rintro (h1 | ⟨e, h1, h2⟩)
          · exact ⟨_, List.mem_cons_self, h1⟩
          · exact ⟨e, List.mem_cons_of_mem _ (p2.subset h1), h2⟩
        · rintro ⟨e, h1, h2⟩
          rcases List.mem_cons.1 h1 with rfl | h1
          · exact .inl h2
          · rcases p3 e h1 with h3 | h3
            · exact .inr ⟨e, h3, h2⟩
            · rw [h3] at h2; exact h2.elim

/-! ## `set` -/

variable (H) in
/-- The state represents a tree, and the key-value store agrees with it. -/
structure Inv (s : Smt) (t : T) : Prop where
  root : s.root = hashOf H 0 t
  stored : Stored H s.db 0 t
  wf : t.WF []
  kv : ∀ K v, s.kv K = some v ↔ t.Mem K v

theorem Inv.empty : Inv H Smt.empty .empty :=
  ⟨rfl, trivial, trivial, fun K v => by simp [Smt.empty, T.Mem]⟩

theorem set_spec' {s : Smt} {t : T} (hc : NoColl s.db) (hi : Inv H s t) {K : Key} (hK : K.Valid) (v : U256)
    (hop : ∀ q h, t.HashAt q h → (q <+: K.split ∨ (v = 0 ∧ (∃ w, t.Mem K w) ∧ q ≠ [] ∧ q.dropLast <+: K.split)) → s.db.get h = none) :
    (∃ s' t', s.set H K v = .ok s' ∧ Inv H s' t' ∧ (∀ e, e ∈ s.db → e ∈ s'.db) ∧
      (∀ q h, t'.HashAt q h ↔ t.HashAt q h) ∧
      ∀ K' v', t'.Mem K' v' ↔ if K' = K then v ≠ 0 ∧ v' = v else t.Mem K' v') ∨
    (s.set H K v = .error .unwrapNone ∧ ∃ q h, t.HashAt q h ∧
      (q <+: K.split ∨ (v = 0 ∧ (∃ w, t.Mem K w) ∧ q ≠ [] ∧ q.dropLast <+: K.split))) := by
  obtain ⟨c, u, hpl, hpre, hf⟩ := descend_spec (H := H) hc (K := K) t K.split [] hi.wf hi.stored rfl
  have hd : descend s.db K.split [] [] s.root = descend s.db K.split (path []) (stackOf H [] t) (hashOf H 0 t) := by
    rw [hi.root]; rfl
  have hd' : descend s.db K.split (path []) (stackOf H [] t) (hashOf H ([] : Ctx).length t) =
      descend s.db K.split [] [] s.root := hd.symm
  rw [hd'] at hf
  have hpl' : plug c u = t := hpl
  have hwp := wf_plug.1 (hpl'.symm ▸ hi.wf)
  have hsp := stored_plug (hpl'.symm ▸ hi.stored)
  have hoff : ∀ v', ¬ MemC K v' c := fun v' => off_path hwp.1 hpre
  -- how to conclude from the last loop
  have concl : ∀ (db1 : Db) (st1 : Stack) (root1 : Key) (db2 : Db) (t' : T) (st acc found),
      descend s.db K.split [] [] s.root = .ok (st, acc, found) →
      update H s.db K v s.root st acc found = .ok (db1, st1, root1) →
      finish H db1 st1 root1 = (db2, hashOf H 0 t') → (∀ e, e ∈ s.db → e ∈ db2) →
      Stored H db2 0 t' → t'.WF [] → (∀ q h, t'.HashAt q h ↔ t.HashAt q h) →
      (∀ K' v', t'.Mem K' v' ↔ if K' = K then v ≠ 0 ∧ v' = v else t.Mem K' v') →
      ∃ s' t', s.set H K v = .ok s' ∧ Inv H s' t' ∧ (∀ e, e ∈ s.db → e ∈ s'.db) ∧
      (∀ q h, t'.HashAt q h ↔ t.HashAt q h) ∧
      ∀ K' v', t'.Mem K' v' ↔ if K' = K then v ≠ 0 ∧ v' = v else t.Mem K' v' := by
    intro db1 st1 root1 db2 t' st acc found h1 h2 h3 h4 h5 h6 h7 h8
    refine ⟨⟨db2, fun k => if k = K then (if v = 0 then none else some v) else s.kv k, hashOf H 0 t'⟩, t',
      by rw [Smt.set, h1]; simp only [h2, h3], ⟨rfl, h5, h6, ?_⟩, h4, h7, h8⟩
    intro K' v'
    rw [h8]
    by_cases hk : K' = K
    · simp only [hk, if_true]
      by_cases hv : v = 0
      · simp [hv]
      · simp only [hv, if_false, ne_eq, not_false_eq_true, true_and, Option.some.injEq]
        exact eq_comm
    · simp only [hk, if_false]
      exact hi.kv K' v'
  cases u with
  | node l r => exact hf.elim
  | hash h =>
    right
    have hat : t.HashAt (path c) h := by
      rw [← hpl', hashAt_plug]; exact .inl ⟨[], by simp, rfl, rfl⟩
    have := hf (hop _ h hat (.inl hpre))
    exact ⟨by rw [Smt.set, this], path c, h, hat, .inl hpre⟩
  | empty =>
    left
    have hf : _ = _ := hf
    by_cases hv : v = 0
    · obtain ⟨db2, f1, f2, f3⟩ := same_finish (H := H) hsp.2 hsp.1
      refine concl s.db _ _ db2 t _ _ _ hf (by simp [update, hv]; exact ⟨rfl, rfl⟩)
        (by rw [hi.root, ← hpl']; exact f1) f2 (hpl' ▸ f3) hi.wf (fun q h => Iff.rfl) ?_
      intro K' v'
      by_cases hk : K' = K
      · simp only [hk, if_true, hv]
        refine ⟨fun h => ?_, fun h => absurd rfl h.1⟩
        rw [← hpl', mem_plug] at h
        rcases h with h | h
        · exact h.elim
        · exact absurd h (hoff v')
      · simp only [hk, if_false]
    · let db1 := (hashKeyHash H (hashVal H s.db v).1 (K.removeBits c.length) (H (valNode v))).1
      have m1 : ∀ e, e ∈ s.db → e ∈ db1 := fun e he => List.mem_cons_of_mem _ (List.mem_cons_of_mem _ he)
      obtain ⟨db2, f1, f2, f3⟩ := place_finish (H := H) (c := c) (st := stackOf H c .empty) (u := .leaf K v) (db := db1)
        (root := s.root) sib_stackOf (hsp.2.mono m1)
        ⟨List.mem_cons_self, List.mem_cons_of_mem _ List.mem_cons_self⟩
      refine concl db1 _ _ db2 (plug c (.leaf K v)) _ _ _ hf ?_ f1 (fun e he => f2 e (m1 e he)) f3 ?_ ?_ ?_
      · simp only [update, hv, if_false, sib_length (sib_stackOf (H := H) (c := c) (u := .empty))]
        rfl
      · rw [wf_plug]
        refine ⟨hwp.1, ⟨hK, hv, hpre⟩, ?_⟩
        cases c with
        | nil => trivial
        | cons e c =>
          exact ⟨fun h => hwp.2.2.1 ⟨h.1, trivial⟩, fun h => by cases h.1⟩
      · intro q h; rw [← hpl', hashAt_plug, hashAt_plug]; simp [T.HashAt]
      · intro K' v'
        rw [mem_plug, ← hpl', mem_plug]
        by_cases hk : K' = K
        · subst hk
          simp only [T.Mem, hoff, hv, true_and, or_false, if_true, ne_eq, not_false_eq_true]
          exact eq_comm
        · have : ¬ K = K' := fun h => hk h.symm
          simp [T.Mem, hk, this]
  | leaf K' v' =>
    have hf : _ = _ := hf
    have hwl := hwp.2.1
    by_cases hkk : K = K'
    · subst hkk
      by_cases hv : v = 0
      · rcases removeFound_spec (H := H) (root := s.root) hc (hpl'.symm ▸ hi.wf) (hpl'.symm ▸ hi.stored) with
          ⟨db1, st1, root1, db2, t', r1, r2, r3, r4, r5, r6, r7⟩ | ⟨b, h, c', r1, r2⟩
        · left
          refine concl db1 st1 root1 db2 t' _ _ _ hf (by simp only [update, hv, if_true]; exact r1) r2 r3 r4 r5
            (fun q h => by rw [r6, hpl']) ?_
          intro K2 v2
          rw [r7]
          by_cases hk : K2 = K
          · subst hk
            simp [hoff, hv]
          · have : ¬ K = K2 := fun h => hk h.symm
            simp only [hk, if_false]
            rw [← hpl', mem_plug]
            simp [T.Mem, this]
        · right
          have hat : t.HashAt (path c' ++ [!b]) h := by
            rw [← hpl', hashAt_plug, r1]; exact .inr (.inl ⟨[], rfl, rfl, rfl⟩)
          have hmw : t.Mem K v' := by rw [← hpl', mem_plug]; exact .inl ⟨rfl, rfl⟩
          have hdl : (path c' ++ [!b]).dropLast <+: K.split := by
            rw [List.dropLast_concat]
            rw [r1, path_cons] at hpre
            exact (List.prefix_append _ _).trans hpre
          refine ⟨?_, _, h, hat, .inr ⟨hv, ⟨v', hmw⟩, by simp, hdl⟩⟩
          rw [Smt.set, hf]
          simp only [update, hv, if_true]
          rw [r2 (hop _ h hat (.inr ⟨hv, ⟨v', hmw⟩, by simp, hdl⟩))]
      · left
        let db1 := (hashKeyHash H (hashVal H s.db v).1 (K.removeBits c.length) (H (valNode v))).1
        have m1 : ∀ e, e ∈ s.db → e ∈ db1 := fun e he => List.mem_cons_of_mem _ (List.mem_cons_of_mem _ he)
        obtain ⟨db2, f1, f2, f3⟩ := place_finish (H := H) (c := c) (st := stackOf H c (.leaf K v')) (u := .leaf K v)
          (db := db1) (root := s.root) sib_stackOf (hsp.2.mono m1)
          ⟨List.mem_cons_self, List.mem_cons_of_mem _ List.mem_cons_self⟩
        refine concl db1 _ _ db2 (plug c (.leaf K v)) _ _ _ hf ?_ f1 (fun e he => f2 e (m1 e he)) f3 ?_ ?_ ?_
        · simp only [update, hv, if_false, if_true]
          rfl
        · rw [wf_plug]
          refine ⟨hwp.1, ⟨hK, hv, hpre⟩, ?_⟩
          cases c with
          | nil => trivial
          | cons e c =>
            exact ⟨fun h => hwp.2.2.1 ⟨h.1, trivial⟩, fun h => by cases h.1⟩
        · intro q h; rw [← hpl', hashAt_plug, hashAt_plug]; simp [T.HashAt]
        · intro K2 v2
          rw [mem_plug, ← hpl', mem_plug]
          by_cases hk : K2 = K
          · subst hk
            simp only [T.Mem, hoff, hv, true_and, or_false, if_true, ne_eq, not_false_eq_true]
            exact eq_comm
          · have : ¬ K = K2 := fun h => hk h.symm
            simp [T.Mem, hk, this]
    · left
      by_cases hv : v = 0
      · obtain ⟨db2, f1, f2, f3⟩ := same_finish (H := H) hsp.2 hsp.1
        refine concl s.db _ _ db2 t _ _ _ hf (by simp [update, hv, hkk]; exact ⟨rfl, rfl⟩)
          (by rw [hi.root, ← hpl']; exact f1) f2 (hpl' ▸ f3) hi.wf (fun q h => Iff.rfl) ?_
        intro K2 v2
        by_cases hk : K2 = K
        · simp only [hk, if_true, hv]
          refine ⟨fun h => ?_, fun h => absurd rfl h.1⟩
          rw [← hpl', mem_plug] at h
          rcases h with h | h
          · exact absurd h.1.symm hkk
          · exact absurd h (hoff v2)
        · simp only [hk, if_false]
      · obtain ⟨db1, st1, root1, db2, u, r1, r2, r3, r4, r5, r6, r7⟩ := splitLeaf_spec (H := H) (v' := v')
          (root := s.root) hK hv hpre hkk hwp.1 hwl hsp.1 hsp.2 (sib_stackOf (u := .leaf K' v'))
        refine concl db1 st1 root1 db2 (plug c u) _ _ _ hf (by simp only [update, hv, hkk, if_false]; exact r1)
          r2 r3 r4 r5 ?_ ?_
        · intro q h
          rw [← hpl', hashAt_plug, hashAt_plug]
          simp [T.HashAt, r6]
        · intro K2 v2
          rw [mem_plug, ← hpl', mem_plug, r7]
          by_cases hk : K2 = K
          · subst hk
            simp only [hoff, hv, hkk, true_and, false_and, or_false, if_true, ne_eq, not_false_eq_true]
          · simp only [hk, if_false, false_and, false_or, T.Mem]
            constructor
            · rintro (⟨rfl, rfl⟩ | h)
              · exact .inl ⟨rfl, rfl⟩
              · exact .inr h
            · rintro (⟨rfl, rfl⟩ | h)
              · exact .inl ⟨rfl, rfl⟩
              · exact .inr h

theorem set_spec {s : Smt} {t : T} (hc : NoColl s.db) (hi : Inv H s t) (hop : ∀ h, t.HashIn h → s.db.get h = none)
    {K : Key} (hK : K.Valid) (v : U256) :
    (∃ s' t', s.set H K v = .ok s' ∧ Inv H s' t' ∧ (∀ e, e ∈ s.db → e ∈ s'.db) ∧
      (∀ q h, t'.HashAt q h ↔ t.HashAt q h) ∧
      ∀ K' v', t'.Mem K' v' ↔ if K' = K then v ≠ 0 ∧ v' = v else t.Mem K' v') ∨
    (s.set H K v = .error .unwrapNone ∧ ∃ q h, t.HashAt q h ∧
      (q <+: K.split ∨ (v = 0 ∧ (∃ w, t.Mem K w) ∧ q ≠ [] ∧ q.dropLast <+: K.split))) :=
  set_spec' hc hi hK v (fun q h hq _ => hop h (hashIn_iff.2 ⟨q, hq⟩))

end
end Verif.Smt
