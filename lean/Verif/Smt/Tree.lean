import Verif.Smt.Model
/-!
# Trees represented by a database

Proof layer: the binary tree a database and a root stand for, its members and its canonical shape.
-/
namespace Verif.Smt

/-- A binary tree with keys at the leaves; `hash` is a subtree of which only the hash is known. -/
inductive T where
  | empty
  | leaf (K : Key) (v : U256)
  | node (l r : T)
  | hash (h : Key)

/-- Empty or a leaf. -/
def T.Light : T → Prop
  | .empty => True
  | .leaf _ _ => True
  | _ => False

/-- The entries of a tree. -/
def T.Mem (K : Key) (v : U256) : T → Prop
  | .empty => False
  | .leaf K' v' => K' = K ∧ v' = v
  | .node l r => l.Mem K v ∨ r.Mem K v
  | .hash _ => False

/-- `h` is the hash of a subtree that is hashed out. -/
def T.HashIn (h : Key) : T → Prop
  | .empty => False
  | .leaf _ _ => False
  | .node l r => l.HashIn h ∨ r.HashIn h
  | .hash h' => h' = h

/-- The subtree at (relative) path `q` is hashed out and its hash is `h`. -/
def T.HashAt (q : List Bool) (h : Key) : T → Prop
  | .empty => False
  | .leaf _ _ => False
  | .node l r =>
    match q with
    | [] => False
    | false :: q => l.HashAt q h
    | true :: q => r.HashAt q h
  | .hash h' => q = [] ∧ h' = h

/-- Canonical shape of the tree at path `p`. -/
def T.WF : List Bool → T → Prop
  | _, .empty => True
  | p, .leaf K v => K.Valid ∧ v ≠ 0 ∧ p <+: K.split
  | p, .node l r => p.length < 256 ∧ l.WF (p ++ [false]) ∧ r.WF (p ++ [true]) ∧
      ¬ (l = .empty ∧ r.Light) ∧ ¬ (r = .empty ∧ l.Light)
  | _, .hash h => h ≠ .zero

/-- No two stored nodes have the same hash and none hashes to zero. -/
structure NoColl (db : Db) : Prop where
  inj : ∀ {k n m}, (k, n) ∈ db → (k, m) ∈ db → n = m
  nz : ∀ n, (Key.zero, n) ∉ db

theorem Db.get_mem {db : Db} {k : Key} {n : Nd} (h : db.get k = some n) : (k, n) ∈ db := by
  induction db with
  | nil => simp [Db.get] at h
  | cons e db ih =>
    obtain ⟨k', m⟩ := e
    rw [Db.get] at h
    by_cases hk : k' = k
    · rw [if_pos hk] at h
      cases h; subst hk; exact List.mem_cons_self
    · rw [if_neg hk] at h
      exact List.mem_cons_of_mem _ (ih h)

theorem Db.get_isSome {db : Db} {k : Key} {n : Nd} (h : (k, n) ∈ db) : ∃ m, db.get k = some m := by
  induction db with
  | nil => cases h
  | cons e db ih =>
    obtain ⟨k', m⟩ := e
    rw [Db.get]
    by_cases hk : k' = k
    · rw [if_pos hk]; exact ⟨m, rfl⟩
    · rw [if_neg hk]
      cases h with
      | head => exact absurd rfl hk
      | tail _ h => exact ih h

theorem NoColl.get {db : Db} (hc : NoColl db) {k : Key} {n : Nd} (h : (k, n) ∈ db) : db.get k = some n := by
  obtain ⟨m, hm⟩ := Db.get_isSome h
  rw [hm, hc.inj (Db.get_mem hm) h]

theorem NoColl.get_zero {db : Db} (hc : NoColl db) : db.get .zero = none := by
  cases h : db.get .zero with
  | none => rfl
  | some n => exact absurd (Db.get_mem h) (hc.nz n)

theorem NoColl.ne {db : Db} (hc : NoColl db) {k : Key} {n : Nd} (h : (k, n) ∈ db) : k ≠ .zero :=
  fun e => hc.nz n (e ▸ h)

theorem NoColl.mono {db db' : Db} (hc : NoColl db') (h : ∀ e, e ∈ db → e ∈ db') : NoColl db :=
  ⟨fun h1 h2 => hc.inj (h _ h1) (h _ h2), fun n hn => hc.nz n (h _ hn)⟩

section
variable (H : Nd → Key)

/-- The node stored for a leaf. -/
def leafNd (d : Nat) (K : Key) (v : U256) : Nd := ⟨K.removeBits d, H (valNode v), .one⟩

/-- Hash of a tree at depth `d`. -/
def hashOf : Nat → T → Key
  | _, .empty => .zero
  | d, .leaf K v => H (leafNd H d K v)
  | d, .node l r => H ⟨hashOf (d + 1) l, hashOf (d + 1) r, .zero⟩
  | _, .hash h => h

/-- Every node of the tree is in the database. -/
def Stored (db : Db) : Nat → T → Prop
  | _, .empty => True
  | d, .leaf K v => (H (leafNd H d K v), leafNd H d K v) ∈ db ∧ (H (valNode v), valNode v) ∈ db
  | d, .node l r => (hashOf H d (.node l r), (⟨hashOf H (d + 1) l, hashOf H (d + 1) r, .zero⟩ : Nd)) ∈ db ∧
      Stored db (d + 1) l ∧ Stored db (d + 1) r
  | _, .hash _ => True

variable {H}

theorem Stored.mono {db db' : Db} (hs : ∀ e, e ∈ db → e ∈ db') : ∀ {d : Nat} {t : T}, Stored H db d t → Stored H db' d t
  | _, .empty, _ => trivial
  | _, .leaf _ _, h => ⟨hs _ h.1, hs _ h.2⟩
  | _, .node _ _, h => ⟨hs _ h.1, Stored.mono hs h.2.1, Stored.mono hs h.2.2⟩
  | _, .hash _, _ => trivial

theorem hashOf_ne {db : Db} (hc : NoColl db) {d : Nat} {p : List Bool} {t : T} (hs : Stored H db d t) (hw : t.WF p)
    (hne : t ≠ .empty) : hashOf H d t ≠ .zero := by
  cases t with
  | empty => exact absurd rfl hne
  | leaf K v => exact hc.ne hs.1
  | node l r => exact hc.ne hs.1
  | hash h => exact hw

theorem hashOf_eq_zero {db : Db} (hc : NoColl db) {d : Nat} {p : List Bool} {t : T} (hs : Stored H db d t) (hw : t.WF p) :
    hashOf H d t = .zero ↔ t = .empty :=
  ⟨fun h => Classical.byContradiction fun hne => hashOf_ne hc hs hw hne h, fun h => by subst h; rfl⟩

end

/-! ## Paths and members -/

theorem mem_path {K : Key} {v : U256} : ∀ {p : List Bool} {t : T}, t.WF p → t.Mem K v →
    p <+: K.split ∧ K.Valid ∧ v ≠ 0
  | _, .empty, _, h => h.elim
  | _, .leaf K' v', hw, h => by
    obtain ⟨rfl, rfl⟩ := h
    exact ⟨hw.2.2, hw.1, hw.2.1⟩
  | p, .node l r, hw, h => by
    rcases h with h | h
    · obtain ⟨h1, h2⟩ := mem_path hw.2.1 h
      exact ⟨(List.prefix_append p [false]).trans h1, h2⟩
    · obtain ⟨h1, h2⟩ := mem_path hw.2.2.1 h
      exact ⟨(List.prefix_append p [true]).trans h1, h2⟩
  | _, .hash _, _, h => h.elim

theorem prefix_snoc_inj {p : List Bool} {a b : Bool} {s : List Bool} (h1 : p ++ [a] <+: s) (h2 : p ++ [b] <+: s) :
    a = b := by
  obtain ⟨u, hu⟩ := h1
  obtain ⟨w, hw⟩ := h2
  rw [← hw, List.append_assoc, List.append_assoc] at hu
  have := List.append_cancel_left hu
  simp at this
  exact this.1

theorem mem_unique {K : Key} {v w : U256} : ∀ {p : List Bool} {t : T}, t.WF p → t.Mem K v → t.Mem K w → v = w
  | _, .empty, _, h, _ => h.elim
  | _, .leaf _ _, _, h, h' => h.2.symm.trans h'.2
  | p, .node l r, hw, h, h' => by
    rcases h with h | h <;> rcases h' with h' | h'
    · exact mem_unique hw.2.1 h h'
    · exact absurd (prefix_snoc_inj (mem_path hw.2.1 h).1 (mem_path hw.2.2.1 h').1) (by decide)
    · exact absurd (prefix_snoc_inj (mem_path hw.2.2.1 h).1 (mem_path hw.2.1 h').1) (by decide)
    · exact mem_unique hw.2.2.1 h h'
  | _, .hash _, _, h, _ => h.elim

/-! ## Contexts -/

/-- A position in a tree: for every level, deepest first, the key bit and the other subtree. -/
abbrev Ctx := List (Bool × T)

/-- The path of a position. -/
def path (c : Ctx) : List Bool := (c.map Prod.fst).reverse

/-- One level up. -/
def mkNode (b : Bool) (s t : T) : T := if b then .node s t else .node t s

/-- The whole tree. -/
def plug : Ctx → T → T
  | [], t => t
  | (b, s) :: c, t => plug c (mkNode b s t)

@[simp] theorem path_nil : path [] = [] := rfl
@[simp] theorem path_cons (b : Bool) (s : T) (c : Ctx) : path ((b, s) :: c) = path c ++ [b] := by simp [path]
@[simp] theorem path_length (c : Ctx) : (path c).length = c.length := by simp [path]

/-- The subtrees beside a position are canonical. -/
def WFc : Ctx → Prop
  | [] => True
  | (b, s) :: c => c.length < 256 ∧ s.WF (path c ++ [!b]) ∧ WFc c

/-- The node above a position is not superfluous. -/
def Top : Ctx → T → Prop
  | [], _ => True
  | (_, s) :: _, u => ¬ (s = .empty ∧ u.Light) ∧ ¬ (u = .empty ∧ s.Light)

theorem wf_mkNode {b : Bool} {s t : T} {p : List Bool} :
    (mkNode b s t).WF p ↔ p.length < 256 ∧ s.WF (p ++ [!b]) ∧ t.WF (p ++ [b]) ∧
      ¬ (s = .empty ∧ t.Light) ∧ ¬ (t = .empty ∧ s.Light) := by
  cases b
  · simp only [mkNode, T.WF, Bool.false_eq_true, if_false, Bool.not_false]
    constructor
    · rintro ⟨a, b, c, d, e⟩; exact ⟨a, c, b, e, d⟩
    · rintro ⟨a, b, c, d, e⟩; exact ⟨a, c, b, e, d⟩
  · simp only [mkNode, T.WF, if_true, Bool.not_true]

theorem mkNode_ne {b : Bool} {s t : T} : mkNode b s t ≠ .empty := by
  cases b <;> simp [mkNode]

theorem mkNode_light {b : Bool} {s t : T} : ¬ (mkNode b s t).Light := by
  cases b <;> simp [mkNode, T.Light]

theorem top_of_heavy {c : Ctx} {u : T} (h1 : u ≠ .empty) (h2 : ¬ u.Light) : Top c u := by
  cases c with
  | nil => trivial
  | cons e c => exact ⟨fun h => h2 h.2, fun h => h1 h.1⟩

theorem wf_plug {c : Ctx} {u : T} : (plug c u).WF [] ↔ WFc c ∧ u.WF (path c) ∧ Top c u := by
  induction c generalizing u with
  | nil => simp [plug, WFc, Top]
  | cons e c ih =>
    obtain ⟨b, s⟩ := e
    rw [plug, ih, wf_mkNode, path_cons, path_length]
    simp only [WFc, Top]
    constructor
    · rintro ⟨h1, ⟨h2, h3, h4, h5, h6⟩, -⟩; exact ⟨⟨h2, h3, h1⟩, h4, h5, h6⟩
    · rintro ⟨⟨h2, h3, h1⟩, h4, h5, h6⟩
      exact ⟨h1, ⟨h2, h3, h4, h5, h6⟩, top_of_heavy mkNode_ne mkNode_light⟩

theorem mem_mkNode {b : Bool} {s t : T} {K : Key} {v : U256} :
    (mkNode b s t).Mem K v ↔ t.Mem K v ∨ s.Mem K v := by
  cases b
  · simp [mkNode, T.Mem]
  · simp [mkNode, T.Mem, or_comm]

/-- Entries beside a position. -/
def MemC (K : Key) (v : U256) (c : Ctx) : Prop := ∃ e, e ∈ c ∧ e.2.Mem K v

theorem mem_plug {c : Ctx} {u : T} {K : Key} {v : U256} : (plug c u).Mem K v ↔ u.Mem K v ∨ MemC K v c := by
  induction c generalizing u with
  | nil => simp [plug, MemC]
  | cons e c ih =>
    obtain ⟨b, s⟩ := e
    rw [plug, ih, mem_mkNode]
    simp only [MemC, List.mem_cons]
    constructor
    · rintro ((h | h) | ⟨e, h1, h2⟩)
      · exact .inl h
      · exact .inr ⟨_, .inl rfl, h⟩
      · exact .inr ⟨e, .inr h1, h2⟩
    · rintro (h | ⟨e, rfl | h1, h2⟩)
      · exact .inl (.inl h)
      · exact .inl (.inr h2)
      · exact .inr ⟨e, h1, h2⟩

theorem hashIn_iff {h : Key} {t : T} : t.HashIn h ↔ ∃ q, t.HashAt q h := by
  induction t with
  | empty => simp [T.HashIn, T.HashAt]
  | leaf K v => simp [T.HashIn, T.HashAt]
  | hash h' => simp [T.HashIn, T.HashAt]
  | node l r ihl ihr =>
    rw [T.HashIn, ihl, ihr]
    constructor
    · rintro (⟨q, h⟩ | ⟨q, h⟩)
      · exact ⟨false :: q, h⟩
      · exact ⟨true :: q, h⟩
    · rintro ⟨q, h⟩
      match q, h with
      | [], h => exact h.elim
      | false :: q, h => exact .inl ⟨q, h⟩
      | true :: q, h => exact .inr ⟨q, h⟩

theorem hashAt_mkNode {b : Bool} {s t : T} {q : List Bool} {h : Key} :
    (mkNode b s t).HashAt q h ↔ (∃ q', q = b :: q' ∧ t.HashAt q' h) ∨ (∃ q', q = (!b) :: q' ∧ s.HashAt q' h) := by
  cases b <;> rcases q with _ | ⟨_ | _, q⟩ <;> simp [mkNode, T.HashAt]

/-- The hashed-out subtrees beside a position. -/
def HashAtC (q : List Bool) (h : Key) : Ctx → Prop
  | [] => False
  | (b, s) :: c => (∃ q', q = path c ++ (!b) :: q' ∧ s.HashAt q' h) ∨ HashAtC q h c

theorem hashAt_plug {c : Ctx} {u : T} {q : List Bool} {h : Key} :
    (plug c u).HashAt q h ↔ (∃ q', q = path c ++ q' ∧ u.HashAt q' h) ∨ HashAtC q h c := by
  induction c generalizing u with
  | nil => simp [plug, HashAtC]
  | cons e c ih =>
    obtain ⟨b, s⟩ := e
    rw [plug, ih, HashAtC, path_cons]
    simp only [hashAt_mkNode]
    constructor
    · rintro (⟨q', rfl, (⟨q'', rfl, h⟩ | ⟨q'', rfl, h⟩)⟩ | h)
      · exact .inl ⟨q'', by simp, h⟩
      · exact .inr (.inl ⟨q'', rfl, h⟩)
      · exact .inr (.inr h)
    · rintro (⟨q', rfl, h⟩ | ⟨q'', rfl, h⟩ | h)
      · exact .inl ⟨b :: q', by simp, .inl ⟨q', rfl, h⟩⟩
      · exact .inl ⟨_, rfl, .inr ⟨q'', rfl, h⟩⟩
      · exact .inr h

theorem hashIn_plug {c : Ctx} {u : T} {h : Key} (hu : u.HashIn h) : (plug c u).HashIn h := by
  obtain ⟨q, hq⟩ := hashIn_iff.1 hu
  exact hashIn_iff.2 ⟨path c ++ q, hashAt_plug.2 (.inl ⟨q, rfl, hq⟩)⟩

/-- A key whose path goes through a position is not beside it. -/
theorem off_path {c : Ctx} (hw : WFc c) {K : Key} {v : U256} (hp : path c <+: K.split) : ¬ MemC K v c := by
  induction c with
  | nil => rintro ⟨e, he, -⟩; cases he
  | cons e c ih =>
    obtain ⟨b, s⟩ := e
    rw [path_cons] at hp
    rintro ⟨e, he, hm⟩
    rcases List.mem_cons.1 he with rfl | he
    · have := prefix_snoc_inj hp (mem_path hw.2.1 hm).1
      revert this; cases b <;> decide
    · exact ih hw.2.2 ((List.prefix_append _ _).trans hp) ⟨e, he, hm⟩

/-! ## Stacks -/

section
variable (H : Nd → Key)

/-- The stack of the search that arrives at a position. -/
def stackOf : Ctx → T → Stack
  | [], _ => []
  | (b, s) :: c, u =>
    (b, (⟨if b then hashOf H (c.length + 1) s else hashOf H (c.length + 1) u,
      if b then hashOf H (c.length + 1) u else hashOf H (c.length + 1) s, .zero⟩ : Nd)) ::
      stackOf c (mkNode b s u)

/-- The stack has the subtrees beside the position. -/
def Sib : Ctx → Stack → Prop
  | [], [] => True
  | (b, s) :: c, (b', n) :: st => b' = b ∧ n.child (!b) = hashOf H (c.length + 1) s ∧ n.c = .zero ∧ Sib c st
  | _, _ => False

/-- The subtrees beside the position are stored. -/
def StoredC (db : Db) : Ctx → Prop
  | [] => True
  | (_, s) :: c => Stored H db (c.length + 1) s ∧ StoredC db c

variable {H}

theorem StoredC.mono {db db' : Db} (hs : ∀ e, e ∈ db → e ∈ db') : ∀ {c : Ctx}, StoredC H db c → StoredC H db' c
  | [], _ => trivial
  | _ :: _, h => ⟨h.1.mono hs, StoredC.mono hs h.2⟩

theorem sib_stackOf {c : Ctx} {u : T} : Sib H c (stackOf H c u) := by
  induction c generalizing u with
  | nil => trivial
  | cons e c ih =>
    obtain ⟨b, s⟩ := e
    refine ⟨rfl, ?_, rfl, ih⟩
    cases b <;> rfl

theorem sib_length {c : Ctx} {st : Stack} (h : Sib H c st) : st.length = c.length := by
  induction c generalizing st with
  | nil => cases st with
    | nil => rfl
    | cons => exact h.elim
  | cons e c ih => cases st with
    | nil => exact h.elim
    | cons e' st => rw [List.length_cons, List.length_cons, ih h.2.2.2]

theorem hashOf_mkNode {d : Nat} {b : Bool} {s t : T} : hashOf H d (mkNode b s t) =
    H ⟨if b then hashOf H (d + 1) s else hashOf H (d + 1) t, if b then hashOf H (d + 1) t else hashOf H (d + 1) s,
      .zero⟩ := by
  cases b <;> rfl

theorem stored_mkNode {db : Db} {d : Nat} {b : Bool} {s t : T} : Stored H db d (mkNode b s t) ↔
    (hashOf H d (mkNode b s t), (⟨if b then hashOf H (d + 1) s else hashOf H (d + 1) t,
      if b then hashOf H (d + 1) t else hashOf H (d + 1) s, .zero⟩ : Nd)) ∈ db ∧
      Stored H db (d + 1) s ∧ Stored H db (d + 1) t := by
  cases b
  · simp only [mkNode, Stored, Bool.false_eq_true, if_false]
    constructor
    · rintro ⟨a, b, c⟩; exact ⟨a, c, b⟩
    · rintro ⟨a, b, c⟩; exact ⟨a, c, b⟩
  · simp only [mkNode, Stored, if_true]

theorem stored_plug {db : Db} {c : Ctx} {u : T} (h : Stored H db 0 (plug c u)) :
    Stored H db c.length u ∧ StoredC H db c := by
  induction c generalizing u with
  | nil => exact ⟨h, trivial⟩
  | cons e c ih =>
    obtain ⟨b, s⟩ := e
    have := ih (u := mkNode b s u) h
    have h2 := stored_mkNode.1 this.1
    exact ⟨h2.2.2, h2.2.1, this.2⟩

theorem Nd.eq_of_child {n : Nd} {b : Bool} {x y : Key} (h1 : n.child (!b) = x) (h2 : n.child b = y) (h3 : n.c = .zero) :
    n = ⟨if b then x else y, if b then y else x, .zero⟩ := by
  obtain ⟨l, r, c⟩ := n
  cases b <;> simp_all [Nd.child]

theorem Nd.child_setChild {n : Nd} {b : Bool} {h : Key} : (n.setChild b h).child b = h := by
  cases b <;> simp [Nd.setChild, Nd.child]

theorem Nd.child_setChild_not {n : Nd} {b : Bool} {h : Key} : (n.setChild b h).child (!b) = n.child (!b) := by
  cases b <;> simp [Nd.setChild, Nd.child]

theorem Nd.setChild_c {n : Nd} {b : Bool} {h : Key} : (n.setChild b h).c = n.c := by
  cases b <;> rfl

/-- Re-hashing the stack above a subtree gives the hash of the whole tree and stores it. -/
theorem finish_spec {c : Ctx} {st : Stack} {u : T} {db : Db} {root : Key} (hsib : Sib H c st)
    (hc : StoredC H db c) (hu : Stored H db c.length u)
    (htop : ∀ b n st', st = (b, n) :: st' → n.child b = hashOf H c.length u)
    (hroot : st = [] → root = hashOf H 0 u) :
    ∃ db', finish H db st root = (db', hashOf H 0 (plug c u)) ∧ (∀ e, e ∈ db → e ∈ db') ∧
      Stored H db' 0 (plug c u) := by
  induction c generalizing st u db root with
  | nil =>
    cases st with
    | nil => exact ⟨db, by rw [finish, hroot rfl]; rfl, fun _ h => h, hu⟩
    | cons e st => exact hsib.elim
  | cons e c ih =>
    obtain ⟨b, s⟩ := e
    cases st with
    | nil => exact hsib.elim
    | cons e' st =>
      obtain ⟨b', n⟩ := e'
      obtain ⟨rfl, h1, h2, h3⟩ := hsib
      have hn := Nd.eq_of_child h1 (htop b' n st rfl) h2
      simp only [List.length_cons] at hn
      have hH : H n = hashOf H c.length (mkNode b' s u) := by rw [hashOf_mkNode, ← hn]
      have hsub : ∀ e, e ∈ db → e ∈ db.set (H n) n := fun e he => List.mem_cons_of_mem _ he
      have hst : Stored H (db.set (H n) n) c.length (mkNode b' s u) := by
        refine stored_mkNode.2 ⟨?_, hc.1.mono hsub, hu.mono hsub⟩
        rw [← hn, ← hH]; exact List.mem_cons_self
      cases st with
      | nil =>
        cases c with
        | cons => exact h3.elim
        | nil =>
          refine ⟨_, by rw [finish, plug, plug]; rw [hH]; rfl, hsub, ?_⟩
          exact hst
      | cons e2 st2 =>
        obtain ⟨b2, m⟩ := e2
        cases c with
        | nil => exact h3.elim
        | cons e3 c2 =>
          obtain ⟨b3, s3⟩ := e3
          obtain ⟨rfl, h4, h5, h6⟩ := h3
          have hsib' : Sib H ((b2, s3) :: c2) ((b2, m.setChild b2 (H n)) :: st2) :=
            ⟨rfl, by rw [Nd.child_setChild_not, h4], by rw [Nd.setChild_c, h5], h6⟩
          obtain ⟨db', e1, e2, e3⟩ := ih (root := H n) hsib' (hc.2.mono hsub) hst
            (fun b n' st' he => by
              cases he
              rw [Nd.child_setChild, hH])
            (fun he => by cases he)
          refine ⟨db', ?_, fun e he => e2 e (hsub e he), e3⟩
          rw [finish]; exact e1

theorem place_finish {c : Ctx} {st : Stack} {u : T} {db : Db} {root : Key} (hsib : Sib H c st)
    (hc : StoredC H db c) (hu : Stored H db c.length u) :
    ∃ db', finish H db (place st root (hashOf H c.length u)).1 (place st root (hashOf H c.length u)).2 =
      (db', hashOf H 0 (plug c u)) ∧ (∀ e, e ∈ db → e ∈ db') ∧ Stored H db' 0 (plug c u) := by
  cases st with
  | nil =>
    cases c with
    | cons => exact hsib.elim
    | nil => exact finish_spec (c := []) (st := []) trivial trivial hu (fun _ _ _ h => by cases h) (fun _ => rfl)
  | cons e st =>
    obtain ⟨b', n⟩ := e
    cases c with
    | nil => exact hsib.elim
    | cons e2 c =>
      obtain ⟨b, s⟩ := e2
      obtain ⟨rfl, h1, h2, h3⟩ := hsib
      refine finish_spec (c := (b', s) :: c) ⟨rfl, ?_, ?_, h3⟩ hc hu ?_ ?_
      · rw [Nd.child_setChild_not, h1]
      · rw [Nd.setChild_c, h2]
      · intro b m st' he
        cases he
        rw [Nd.child_setChild]
      · intro he; cases he

theorem same_finish {c : Ctx} {u : T} {db : Db} (hc : StoredC H db c) (hu : Stored H db c.length u) :
    ∃ db', finish H db (stackOf H c u) (hashOf H 0 (plug c u)) = (db', hashOf H 0 (plug c u)) ∧
      (∀ e, e ∈ db → e ∈ db') ∧ Stored H db' 0 (plug c u) := by
  refine finish_spec sib_stackOf hc hu ?_ ?_
  · intro b n st' he
    cases c with
    | nil => cases he
    | cons e c =>
      obtain ⟨b', s⟩ := e
      cases he
      cases b <;> rfl
  · intro he
    cases c with
    | nil => rfl
    | cons e c => cases he

end
end Verif.Smt
