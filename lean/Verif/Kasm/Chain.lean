/-! Linked lists laid out in memory: nodes of a fixed size one after the other, the last cell of
a node pointing to the next one, a first node that closes the circle, and removed nodes marked
by a special pointer.  This is the shape of the lists of `asm/mpt/linked_list/linked_list.asm:1-30`
and `asm/core/access_lists.asm:1-13`. -/

namespace Verif.Kasm

/-- The mark of a removed node, `@U256_MAX`. -/
abbrev u256Max : Nat := 0xffffffffffffffffffffffffffffffffffffffffffffffffffffffffffffffff

/-- From `a` the pointers lead through the listed nodes to `b`. -/
def Chain (nx : Nat → Nat) : Nat → List Nat → Nat → Prop
  | a, [], b => nx a = b
  | a, x :: xs, b => nx a = x ∧ Chain nx x xs b

/-- `p` is the node before position `l.length`: the last of `a :: l`. -/
def LastOf (a : Nat) (l : List Nat) (p : Nat) : Prop := (a :: l).getLast? = some p

theorem LastOf.nil {a p : Nat} : LastOf a [] p ↔ a = p := by simp [LastOf]
theorem LastOf.cons {a x p : Nat} {l : List Nat} : LastOf a (x :: l) p ↔ LastOf x l p := by
  simp [LastOf, List.getLast?_cons_cons]

theorem Chain.next {nx : Nat → Nat} {p b : Nat} {r : List Nat} :
    ∀ {a : Nat} {l : List Nat}, Chain nx a (l ++ r) b → LastOf a l p → nx p = r.headD b := by
  intro a l
  induction l generalizing a with
  | nil =>
    intro h hl
    rw [LastOf.nil] at hl; subst hl
    cases r with
    | nil => exact h
    | cons x xs => exact h.1
  | cons y ys ih => intro h hl; exact ih h.2 (LastOf.cons.1 hl)

/-- A node of the list, or the first node, has a place. -/
theorem exists_split {p : Nat} : ∀ {a : Nat} {ps : List Nat}, p ∈ a :: ps →
    ∃ l r, ps = l ++ r ∧ LastOf a l p := by
  intro a ps
  induction ps generalizing a with
  | nil => intro h; exact ⟨[], [], rfl, by simpa [LastOf, eq_comm] using h⟩
  | cons y ys ih =>
    intro h
    rcases List.mem_cons.1 h with rfl | h
    · exact ⟨[], y :: ys, rfl, by simp [LastOf]⟩
    · obtain ⟨l, r, rfl, hl⟩ := ih h
      exact ⟨y :: l, r, rfl, LastOf.cons.2 hl⟩

theorem LastOf.mem {a p : Nat} {l : List Nat} (h : LastOf a l p) : p ∈ a :: l :=
  List.mem_of_getLast? h

theorem Chain.congr {nx nx' : Nat → Nat} {b : Nat} : ∀ {a : Nat} {ps : List Nat},
    Chain nx a ps b → (∀ q ∈ a :: ps, nx' q = nx q) → Chain nx' a ps b := by
  intro a ps
  induction ps generalizing a with
  | nil => intro h hq; exact (hq a (by simp)).trans h
  | cons x xs ih =>
    intro h hq
    exact ⟨(hq a (by simp)).trans h.1, ih h.2 fun q hm => hq q (List.mem_cons_of_mem _ hm)⟩

/-- Inserting a node after `p`. -/
theorem Chain.insert {nx nx' : Nat → Nat} {b p x : Nat} {r : List Nat} :
    ∀ {a : Nat} {l : List Nat}, Chain nx a (l ++ r) b → LastOf a l p → (a :: (l ++ r)).Nodup →
    nx' p = x → nx' x = nx p → (∀ q ∈ a :: (l ++ r), q ≠ p → nx' q = nx q) →
    Chain nx' a (l ++ x :: r) b := by
  intro a l
  induction l generalizing a with
  | nil =>
    intro h hl hn h1 h2 h3
    rw [LastOf.nil] at hl; subst hl
    refine ⟨h1, ?_⟩
    cases r with
    | nil => exact h2.trans h
    | cons y ys =>
      refine ⟨h2.trans h.1, h.2.congr fun q hq => h3 q (List.mem_cons_of_mem _ hq) ?_⟩
      rintro rfl
      exact (List.nodup_cons.1 hn).1 hq
  | cons y ys ih =>
    intro h hl hn h1 h2 h3
    have hl' := LastOf.cons.1 hl
    refine ⟨(h3 a (by simp) ?_).trans h.1, ih h.2 hl' (List.nodup_cons.1 hn).2 h1 h2
      fun q hq => h3 q (List.mem_cons_of_mem _ hq)⟩
    rintro rfl
    refine (List.nodup_cons.1 hn).1 ?_
    have := hl'.mem
    simp only [List.cons_append, List.mem_cons, List.mem_append] at this ⊢
    rcases this with h | h
    · exact Or.inl h
    · exact Or.inr (Or.inl h)

/-- Removing the node after `p`. -/
theorem Chain.remove {nx nx' : Nat → Nat} {b p x : Nat} {r : List Nat} :
    ∀ {a : Nat} {l : List Nat}, Chain nx a (l ++ x :: r) b → LastOf a l p →
    (a :: (l ++ x :: r)).Nodup → nx' p = nx x →
    (∀ q ∈ a :: (l ++ x :: r), q ≠ p → q ≠ x → nx' q = nx q) →
    Chain nx' a (l ++ r) b := by
  intro a l
  induction l generalizing a with
  | nil =>
    intro h hl hn h1 h3
    rw [LastOf.nil] at hl; subst hl
    obtain ⟨_, h⟩ := h
    simp only [List.nil_append, List.nodup_cons, List.mem_cons, not_or] at hn
    cases r with
    | nil => exact h1.trans h
    | cons y ys =>
      refine ⟨h1.trans h.1, h.2.congr fun q hq => h3 q ?_ ?_ ?_⟩
      · exact List.mem_cons_of_mem _ (List.mem_cons_of_mem _ hq)
      · rintro rfl; exact hn.1.2 hq
      · rintro rfl; exact hn.2.1 hq
  | cons y ys ih =>
    intro h hl hn h1 h3
    have hl' := LastOf.cons.1 hl
    have hn' := List.nodup_cons.1 hn
    refine ⟨(h3 a (by simp) ?_ ?_).trans h.1, ih h.2 hl' hn'.2 h1
      fun q hq => h3 q (List.mem_cons_of_mem _ hq)⟩
    · rintro rfl
      refine hn'.1 ?_
      have := hl'.mem
      simp only [List.cons_append, List.mem_cons, List.mem_append] at this ⊢
      rcases this with h | h
      · exact Or.inl h
      · exact Or.inr (Or.inl h)
    · rintro rfl
      exact hn'.1 (by simp)

/-! ### Lists in memory -/

/-- A list in memory: `n` nodes of `k + 1` cells each from `base` on, of which the first is the
start and the nodes of `ps` are linked, in this order; the other ones are marked as removed.
Keys increase along the list. -/
structure Linked (base k : Nat) (mem : Nat → Nat) (key : Nat → Nat) (n : Nat) (ps : List Nat) :
    Prop where
  pos : 0 < n
  room : (k + 1) * n ≤ 2 ^ 32
  small : base < 2 ^ 64
  chain : Chain (fun p => mem (p + k)) base ps base
  nodes : ∀ p ∈ ps, ∃ i, 0 < i ∧ i < n ∧ p = base + (k + 1) * i
  dead : ∀ i, 0 < i → i < n → base + (k + 1) * i ∉ ps →
    mem (base + (k + 1) * i + k) = u256Max
  sorted : (ps.map key).Pairwise (· < ·)

namespace Linked
variable {base k : Nat} {mem mem' : Nat → Nat} {key key' : Nat → Nat} {n : Nat} {ps l r : List Nat}
  {p x i : Nat}

theorem base_notin (h : Linked base k mem key n ps) : base ∉ ps := by
  intro hm
  obtain ⟨i, h0, _, he⟩ := h.nodes _ hm
  have : 0 < (k + 1) * i := Nat.mul_pos (by omega) h0
  omega

theorem nodup (h : Linked base k mem key n ps) : (base :: ps).Nodup := by
  refine List.nodup_cons.2 ⟨h.base_notin, ?_⟩
  have := h.sorted
  rw [List.pairwise_map] at this
  exact this.imp fun hlt he => by subst he; omega

/-- What a pointer to the beginning of a node may be. -/
theorem cases (h : Linked base k mem key n ps) (hi : i < n) :
    base + (k + 1) * i ∈ base :: ps ∨ mem (base + (k + 1) * i + k) = u256Max := by
  rcases Nat.eq_zero_or_pos i with rfl | h0
  · left; simp
  · by_cases hm : base + (k + 1) * i ∈ ps
    · left; exact List.mem_cons_of_mem _ hm
    · right; exact h.dead i h0 hi hm

/-- Pointers stored in linked nodes. -/
theorem next_mem (h : Linked base k mem key n ps) (hp : p ∈ base :: ps) :
    mem (p + k) ∈ base :: ps := by
  obtain ⟨l, r, rfl, hl⟩ := exists_split hp
  have : mem (p + k) = r.headD base := h.chain.next hl
  rw [this]
  cases r with
  | nil => simp
  | cons y ys => simp

theorem ptr_lt (h : Linked base k mem key n ps) (hp : p ∈ base :: ps) :
    ∃ i, i < n ∧ p = base + (k + 1) * i := by
  rcases List.mem_cons.1 hp with rfl | hp
  · exact ⟨0, h.pos, by simp⟩
  · obtain ⟨i, _, hi, he⟩ := h.nodes p hp
    exact ⟨i, hi, he⟩

/-- Linked nodes lie within the segment. -/
theorem ptr_bound (h : Linked base k mem key n ps) (hp : p ∈ base :: ps) :
    base ≤ p ∧ p + k < base + (k + 1) * n := by
  obtain ⟨i, hi, rfl⟩ := h.ptr_lt hp
  have : (k + 1) * (i + 1) ≤ (k + 1) * n := Nat.mul_le_mul_left _ hi
  rw [Nat.mul_succ] at this
  omega

theorem next_ne_max (h : Linked base k mem key n ps) (hp : p ∈ base :: ps) :
    mem (p + k) ≠ u256Max := by
  have := h.ptr_bound (h.next_mem hp)
  have h1 := h.room
  have h2 := h.small
  simp only [u256Max]
  omega

/-- Two nodes that overlap are the same. -/
theorem node_inj {i j a b : Nat} (ha : a ≤ k) (hb : b ≤ k)
    (h : base + (k + 1) * i + a = base + (k + 1) * j + b) : i = j ∧ a = b := by
  have h1 : (k + 1) * i + a = (k + 1) * j + b := by omega
  have hi : ((k + 1) * i + a) / (k + 1) = i := by
    rw [Nat.mul_add_div (by omega), Nat.div_eq_of_lt (by omega)]; rfl
  have hj : ((k + 1) * j + b) / (k + 1) = j := by
    rw [Nat.mul_add_div (by omega), Nat.div_eq_of_lt (by omega)]; rfl
  rw [h1] at hi
  have : i = j := hi.symm.trans hj
  subst this
  exact ⟨rfl, by omega⟩

/-- The new node is not in the list. -/
theorem new_notin (h : Linked base k mem key n ps) : base + (k + 1) * n ∉ base :: ps := by
  intro hm
  have := h.ptr_bound hm
  omega

/-- The cells of linked nodes are not those of the new node. -/
theorem ne_new (h : Linked base k mem key n ps) (hp : p ∈ base :: ps) {a b : Nat} (ha : a ≤ k) :
    p + a ≠ base + (k + 1) * n + b := by
  have := h.ptr_bound hp
  omega

/-- Linked nodes that overlap are the same. -/
theorem mem_inj (h : Linked base k mem key n ps) {q : Nat} (hp : p ∈ base :: ps)
    (hq : q ∈ base :: ps) {a b : Nat} (ha : a ≤ k) (hb : b ≤ k) (he : p + a = q + b) :
    p = q ∧ a = b := by
  obtain ⟨i, _, rfl⟩ := h.ptr_lt hp
  obtain ⟨j, _, rfl⟩ := h.ptr_lt hq
  obtain ⟨rfl, rfl⟩ := node_inj ha hb he
  exact ⟨rfl, rfl⟩

/-- A changed memory that keeps the pointers and keys. -/
theorem congr (h : Linked base k mem key n ps)
    (hm : ∀ i, i < n → mem' (base + (k + 1) * i + k) = mem (base + (k + 1) * i + k))
    (hk : ∀ p ∈ ps, key' p = key p) : Linked base k mem' key' n ps where
  pos := h.pos
  room := h.room
  small := h.small
  chain := h.chain.congr fun q hq => by
    obtain ⟨i, hi, rfl⟩ := h.ptr_lt hq
    exact hm i hi
  nodes := h.nodes
  dead := fun i h0 hi hn => (hm i hi).trans (h.dead i h0 hi hn)
  sorted := by
    rw [List.map_congr_left (f := key') (g := key) hk]; exact h.sorted

/-- Inserting the new node between two others. -/
theorem insert (h : Linked base k mem key n (l ++ r)) (hl : LastOf base l p)
    (hr : (k + 1) * (n + 1) ≤ 2 ^ 32)
    (h1 : mem' (p + k) = base + (k + 1) * n) (h2 : mem' (base + (k + 1) * n + k) = mem (p + k))
    (h3 : ∀ i, i < n → base + (k + 1) * i ≠ p →
      mem' (base + (k + 1) * i + k) = mem (base + (k + 1) * i + k))
    (hk : ∀ q ∈ l ++ r, key' q = key q)
    (hlo : ∀ q ∈ l, key q < key' (base + (k + 1) * n))
    (hhi : ∀ q ∈ r, key' (base + (k + 1) * n) < key q) :
    Linked base k mem' key' (n + 1) (l ++ (base + (k + 1) * n) :: r) where
  pos := by omega
  room := hr
  small := h.small
  chain := h.chain.insert hl h.nodup h1 h2 fun q hq hne => by
    obtain ⟨i, hi, rfl⟩ := h.ptr_lt hq
    exact h3 i hi hne
  nodes := by
    intro q hq
    simp only [List.mem_append, List.mem_cons] at hq
    rcases hq with hq | rfl | hq
    · obtain ⟨i, h0, hi, he⟩ := h.nodes q (by simp [hq]); exact ⟨i, h0, by omega, he⟩
    · exact ⟨n, h.pos, by omega, rfl⟩
    · obtain ⟨i, h0, hi, he⟩ := h.nodes q (by simp [hq]); exact ⟨i, h0, by omega, he⟩
  dead := by
    intro i h0 hi hn
    simp only [List.mem_append, List.mem_cons, not_or] at hn
    have hin : i ≠ n := by rintro rfl; exact hn.2.1 rfl
    have hlt : i < n := by omega
    rw [h3 i hlt]
    · exact h.dead i h0 hlt (by simp [hn.1, hn.2.2])
    · rintro rfl
      have := hl.mem
      rcases List.mem_cons.1 this with he | hm
      · have : 0 < (k + 1) * i := Nat.mul_pos (by omega) h0
        omega
      · exact hn.1 hm
  sorted := by
    have hs := h.sorted
    rw [List.map_append, List.pairwise_append] at hs
    have e1 : l.map key' = l.map key := List.map_congr_left fun q hq => hk q (by simp [hq])
    have e2 : r.map key' = r.map key := List.map_congr_left fun q hq => hk q (by simp [hq])
    rw [List.map_append, List.map_cons, e1, e2, List.pairwise_append]
    refine ⟨hs.1, List.pairwise_cons.2 ⟨?_, hs.2.1⟩, ?_⟩
    · intro y hy
      obtain ⟨q, hq, rfl⟩ := List.mem_map.1 hy
      exact hhi q hq
    · intro y hy z hz
      rcases List.mem_cons.1 hz with rfl | hz
      · obtain ⟨q, hq, rfl⟩ := List.mem_map.1 hy
        exact hlo q hq
      · exact hs.2.2 y hy z hz

/-- Removing a node. -/
theorem remove (h : Linked base k mem key n (l ++ x :: r)) (hl : LastOf base l p)
    (h1 : mem' (p + k) = mem (x + k)) (h2 : mem' (x + k) = u256Max)
    (h3 : ∀ i, i < n → base + (k + 1) * i ≠ p → base + (k + 1) * i ≠ x →
      mem' (base + (k + 1) * i + k) = mem (base + (k + 1) * i + k))
    (hk : ∀ q ∈ l ++ r, key' q = key q) :
    Linked base k mem' key' n (l ++ r) where
  pos := h.pos
  room := h.room
  small := h.small
  chain := h.chain.remove hl h.nodup h1 fun q hq hne hnx => by
    obtain ⟨i, hi, rfl⟩ := h.ptr_lt hq
    exact h3 i hi hne hnx
  nodes := by
    intro q hq
    exact h.nodes q (by simp only [List.mem_append, List.mem_cons] at hq ⊢; rcases hq with h | h <;> simp [h])
  dead := by
    intro i h0 hi hn
    by_cases hx : base + (k + 1) * i = x
    · rw [hx]; exact h2
    · have hnp : base + (k + 1) * i ≠ p := by
        rintro rfl
        rcases List.mem_cons.1 hl.mem with he | hm
        · have : 0 < (k + 1) * i := Nat.mul_pos (by omega) h0
          omega
        · exact hn (by simp [hm])
      rw [h3 i hi hnp hx]
      refine h.dead i h0 hi ?_
      simp only [List.mem_append, List.mem_cons, not_or] at hn ⊢
      exact ⟨hn.1, hx, hn.2⟩
  sorted := by
    have hs := h.sorted
    rw [List.map_congr_left (f := key') (g := key) hk]
    refine hs.sublist ?_
    simp only [List.map_append, List.map_cons]
    exact List.Sublist.append (List.Sublist.refl _) (List.sublist_cons_self _ _)

/-- The node that the pointer of a linked node leads to: its key is above those up to that
node, and it is the start when there are none. -/
theorem around (h : Linked base k mem key n ps) (hp : p ∈ base :: ps) {a : Nat}
    (hlo : p = base ∨ key p < a) (hhi : mem (p + k) = base ∨ a < key (mem (p + k))) :
    ∃ l r, ps = l ++ r ∧ LastOf base l p ∧ (∀ q ∈ l, key q < a) ∧ ∀ q ∈ r, a < key q := by
  obtain ⟨l, r, rfl, hl⟩ := exists_split hp
  have hnx : mem (p + k) = r.headD base := h.chain.next hl
  have hs := h.sorted
  rw [List.map_append, List.pairwise_append] at hs
  refine ⟨l, r, rfl, hl, ?_, ?_⟩
  · intro q hq
    rcases hlo with rfl | hlo
    · exfalso
      have : p ∈ l := by
        cases l with
        | nil => cases hq
        | cons y ys => exact (LastOf.cons.1 hl).mem
      exact h.base_notin (by simp [this])
    · obtain ⟨y, hy⟩ : ∃ y, l = y ++ [p] := by
        have hne : l ≠ [] := by rintro rfl; cases hq
        refine ⟨l.dropLast, ?_⟩
        have h1 := hl
        unfold LastOf at h1
        obtain ⟨z, zs, rfl⟩ := List.exists_cons_of_ne_nil hne
        rw [List.getLast?_cons_cons, List.getLast?_eq_some_getLast (by simp)] at h1
        rw [← Option.some.inj h1]; exact (List.dropLast_concat_getLast _).symm
      subst hy
      rcases List.mem_append.1 hq with hq | hq
      · have h2 := hs.1
        rw [List.map_append, List.pairwise_append] at h2
        have := h2.2.2 (key q) (List.mem_map.2 ⟨q, hq, rfl⟩) (key p) (by simp)
        omega
      · simp only [List.mem_singleton] at hq; subst hq; exact hlo
  · intro q hq
    cases r with
    | nil => cases hq
    | cons y ys =>
      simp only [List.headD_cons] at hnx
      rw [hnx] at hhi
      have hy : a < key y := by
        rcases hhi with rfl | h2
        · exact absurd (by simp) h.base_notin
        · exact h2
      rcases List.mem_cons.1 hq with rfl | hq
      · exact hy
      · have h2 := hs.2.1
        rw [List.map_cons, List.pairwise_cons] at h2
        have := h2.1 (key q) (List.mem_map.2 ⟨q, hq, rfl⟩)
        omega

/-- There is a last node whose key is at most `a`, or it is the start. -/
theorem exists_pred (h : Linked base k mem key n ps) {a : Nat} (hb : a < key base) :
    ∃ p ∈ base :: ps, (p = base ∨ key p ≤ a) ∧ a < key (mem (p + k)) := by
  have aux : ∀ (qs : List Nat) (s : Nat), Chain (fun p => mem (p + k)) s qs base →
      (s = base ∨ key s ≤ a) → ∃ p ∈ s :: qs, (p = base ∨ key p ≤ a) ∧ a < key (mem (p + k)) := by
    intro qs
    induction qs with
    | nil =>
      intro s hc hs
      have hc : mem (s + k) = base := hc
      exact ⟨s, by simp, hs, by rw [hc]; exact hb⟩
    | cons x qs ih =>
      intro s hc hs
      have hx : mem (s + k) = x := hc.1
      by_cases hlt : a < key x
      · exact ⟨s, by simp, hs, by rw [hx]; exact hlt⟩
      · obtain ⟨p, hp, h1⟩ := ih x hc.2 (.inr (by omega))
        exact ⟨p, List.mem_cons_of_mem _ hp, h1⟩
  exact aux ps base h.chain (.inl rfl)

/-- Every node of the list comes after another one or the start. -/
theorem exists_before (h : Linked base k mem key n ps) (hx : x ∈ ps) :
    ∃ p ∈ base :: ps, mem (p + k) = x := by
  have aux : ∀ (qs : List Nat) (s : Nat), Chain (fun p => mem (p + k)) s qs base → x ∈ qs →
      ∃ p ∈ s :: qs, mem (p + k) = x := by
    intro qs
    induction qs with
    | nil => intro s _ hm; cases hm
    | cons y qs ih =>
      intro s hc hm
      rcases List.mem_cons.1 hm with rfl | hm
      · exact ⟨s, by simp, hc.1⟩
      · obtain ⟨p, hp, h1⟩ := ih y hc.2 hm
        exact ⟨p, List.mem_cons_of_mem _ hp, h1⟩
  exact aux ps base h.chain hx

/-- The node after `p`, if it is not the start. -/
theorem split_next (h : Linked base k mem key n ps) (hp : p ∈ base :: ps) (hx : mem (p + k) = x)
    (hxm : x ∈ ps) : p ≠ x ∧ ∃ l r, ps = l ++ x :: r ∧ LastOf base l p := by
  obtain ⟨l, r, rfl, hl⟩ := exists_split hp
  have hnx : mem (p + k) = r.headD base := h.chain.next hl
  rw [hx] at hnx
  cases r with
  | nil =>
    obtain rfl : x = base := hnx
    exact absurd hxm h.base_notin
  | cons y r =>
    obtain rfl : x = y := hnx
    refine ⟨?_, l, r, rfl, hl⟩
    rintro rfl
    have hnd := h.nodup
    rw [← List.cons_append] at hnd
    exact (List.nodup_append.1 hnd).2.2 p hl.mem p (by simp) rfl

/-- Keys are unique. -/
theorem key_inj (h : Linked base k mem key n ps) {q : Nat} (hp : p ∈ ps) (hq : q ∈ ps)
    (he : key p = key q) : p = q := by
  have hs := h.sorted
  rw [List.pairwise_map] at hs
  by_cases hne : p = q
  · exact hne
  · revert he
    have key_ne : ∀ a ∈ ps, ∀ b ∈ ps, a ≠ b → key a ≠ key b := by
      intro a ha b hb hab
      obtain ⟨i, hi, rfl⟩ := List.getElem_of_mem ha
      obtain ⟨j, hj, rfl⟩ := List.getElem_of_mem hb
      rw [List.pairwise_iff_getElem] at hs
      rcases Nat.lt_trichotomy i j with hlt | rfl | hgt
      · have := hs i j hi hj hlt; omega
      · exact absurd rfl hab
      · have := hs j i hj hi hgt; omega
    intro he
    exact absurd he (key_ne p hp q hq hne)

end Linked

/-! ### What a list holds -/

/-- The list holds exactly the entries of `f`. -/
def Content {V : Type} (key : Nat → Nat) (val : Nat → V) (ps : List Nat) (f : Nat → Option V) :
    Prop :=
  ∀ a v, f a = some v ↔ ∃ p ∈ ps, key p = a ∧ val p = v

/-- A finite map with one entry changed. -/
def upd {V : Type} (f : Nat → Option V) (a : Nat) (v : Option V) : Nat → Option V :=
  fun b => if b = a then v else f b

namespace Content
variable {V : Type} {key key' : Nat → Nat} {val val' : Nat → V} {ps l r : List Nat}
  {f : Nat → Option V} {a p x : Nat} {v : V}

theorem get (h : Content key val ps f) (hp : p ∈ ps) : f (key p) = some (val p) :=
  (h _ _).2 ⟨p, hp, rfl, rfl⟩

theorem get_none (h : Content key val ps f) (hn : ∀ p ∈ ps, key p ≠ a) : f a = none := by
  cases hf : f a with
  | none => rfl
  | some v =>
    obtain ⟨p, hp, he, _⟩ := (h _ _).1 hf
    exact absurd he (hn p hp)

theorem insert (h : Content key val (l ++ r) f) (hn : ∀ p ∈ l ++ r, key p ≠ key' x)
    (hk : ∀ p ∈ l ++ r, key' p = key p) (hv : ∀ p ∈ l ++ r, val' p = val p) :
    Content key' val' (l ++ x :: r) (upd f (key' x) (some (val' x))) := by
  intro b v
  simp only [upd]
  constructor
  · intro hb
    split at hb
    · rename_i hba
      exact ⟨x, by simp, hba.symm, Option.some.inj hb⟩
    · obtain ⟨p, hp, h1, h2⟩ := (h _ _).1 hb
      exact ⟨p, by simp only [List.mem_append, List.mem_cons] at hp ⊢; rcases hp with h | h <;> simp [h],
        (hk p hp).trans h1, (hv p hp).trans h2⟩
  · rintro ⟨p, hp, h1, h2⟩
    by_cases hpx : p ∈ l ++ r
    · have hne : b ≠ key' x := by rw [← h1, hk p hpx]; exact hn p hpx
      rw [if_neg hne]
      exact (h _ _).2 ⟨p, hpx, (hk p hpx).symm.trans h1, (hv p hpx).symm.trans h2⟩
    · have : p = x := by
        simp only [List.mem_append, List.mem_cons, not_or] at hp hpx
        rcases hp with h | h | h
        · exact absurd h hpx.1
        · exact h
        · exact absurd h hpx.2
      subst this
      rw [if_pos h1.symm, h2]

theorem remove (h : Content key val (l ++ x :: r) f) (hn : ∀ p ∈ l ++ r, key p ≠ key x)
    (hk : ∀ p ∈ l ++ r, key' p = key p) (hv : ∀ p ∈ l ++ r, val' p = val p) :
    Content key' val' (l ++ r) (upd f (key x) none) := by
  intro b v
  simp only [upd]
  constructor
  · intro hb
    split at hb
    · cases hb
    · rename_i hne
      obtain ⟨p, hp, h1, h2⟩ := (h _ _).1 hb
      have hp' : p ∈ l ++ r := by
        simp only [List.mem_append, List.mem_cons] at hp ⊢
        rcases hp with h | rfl | h
        · exact Or.inl h
        · exact absurd h1.symm hne
        · exact Or.inr h
      exact ⟨p, hp', (hk p hp').trans h1, (hv p hp').trans h2⟩
  · rintro ⟨p, hp, h1, h2⟩
    have hne : b ≠ key x := by rw [← h1, hk p hp]; exact hn p hp
    rw [if_neg hne]
    exact (h _ _).2 ⟨p, by simp only [List.mem_append, List.mem_cons] at hp ⊢; rcases hp with h | h <;> simp [h],
      (hk p hp).symm.trans h1, (hv p hp).symm.trans h2⟩

theorem update (h : Content key val ps f) (hx : x ∈ ps)
    (hi : ∀ p ∈ ps, key p = key x → p = x)
    (hk : ∀ p ∈ ps, key' p = key p) (hv : ∀ p ∈ ps, p ≠ x → val' p = val p) :
    Content key' val' ps (upd f (key x) (some (val' x))) := by
  intro b v
  simp only [upd]
  constructor
  · intro hb
    split at hb
    · rename_i hba
      exact ⟨x, hx, (hk x hx).trans hba.symm, Option.some.inj hb⟩
    · rename_i hne
      obtain ⟨p, hp, h1, h2⟩ := (h _ _).1 hb
      refine ⟨p, hp, (hk p hp).trans h1, (hv p hp ?_).trans h2⟩
      rintro rfl; exact hne h1.symm
  · rintro ⟨p, hp, h1, h2⟩
    by_cases hpx : p = x
    · subst hpx
      rw [if_pos (by rw [← h1, hk p hp]), h2]
    · have hne : b ≠ key x := by
        rw [← h1, hk p hp]; intro he; exact hpx (hi p hp he)
      rw [if_neg hne]
      exact (h _ _).2 ⟨p, hp, (hk p hp).symm.trans h1, (hv p hp hpx).symm.trans h2⟩

theorem congr (h : Content key val ps f) (hk : ∀ p ∈ ps, key' p = key p)
    (hv : ∀ p ∈ ps, val' p = val p) : Content key' val' ps f := by
  intro b v
  rw [h b v]
  constructor
  · rintro ⟨p, hp, h1, h2⟩; exact ⟨p, hp, (hk p hp).trans h1, (hv p hp).trans h2⟩
  · rintro ⟨p, hp, h1, h2⟩; exact ⟨p, hp, (hk p hp).symm.trans h1, (hv p hp).symm.trans h2⟩

end Content
end Verif.Kasm
