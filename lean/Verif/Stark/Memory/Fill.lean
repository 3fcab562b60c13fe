import Verif.Stark.Memory.Gen
import Mathlib.Data.List.Chain
import Mathlib.Data.List.Sort

/-! The operations of the memory table's rows: what sorting, filling gaps and padding make of a history. -/

namespace Verif.Stark.Memory

theorem Op.le_iff {a b : Op} : Op.le a b = true ↔
    (a.ctx < b.ctx ∨ a.ctx = b.ctx ∧ (a.seg < b.seg ∨ a.seg = b.seg ∧ (a.virt < b.virt ∨ a.virt = b.virt ∧ a.ts ≤ b.ts))) := by
  unfold Op.le; exact decide_eq_true_iff

theorem Op.le_trans (a b c : Op) (h : Op.le a b = true) (h' : Op.le b c = true) : Op.le a c = true := by
  rw [Op.le_iff] at *; omega

theorem Op.le_total (a b : Op) : (Op.le a b || Op.le b a) = true := by
  rw [Bool.or_eq_true, Op.le_iff, Op.le_iff]; omega

theorem sorted_perm (l : List Op) : (sorted l).Perm l := List.mergeSort_perm _ _

theorem sorted_pairwise (l : List Op) : (sorted l).Pairwise (fun a b => Op.le a b = true) :=
  List.pairwise_mergeSort Op.le_trans Op.le_total l

theorem sorted_of_pairwise {l : List Op} (h : l.Pairwise (fun a b => Op.le a b = true)) : sorted l = l :=
  List.mergeSort_of_pairwise h

/-- Same address and same time. -/
def Op.SameKey (a b : Op) : Prop := a.addr = b.addr ∧ a.ts = b.ts

theorem Op.sameKey_of_le {a b : Op} (h : Op.le a b = true) (h' : Op.le b a = true) : a.SameKey b := by
  rw [Op.le_iff] at *
  unfold Op.SameKey Op.addr
  simp only [Prod.mk.injEq]
  omega

/-- The neighbours' relation in the generated table. -/
structure Good (m : ℕ) (a b : Op) : Prop where
  le : Op.le a b = true
  ctx : a.ctx ≠ b.ctx → b.ctx - a.ctx - 1 ≤ m ∧ b.virt ≤ m
  seg : a.ctx = b.ctx → a.seg ≠ b.seg → b.seg - a.seg - 1 ≤ m ∧ b.virt ≤ m
  virt : a.ctx = b.ctx → a.seg = b.seg → a.virt ≠ b.virt → b.virt - a.virt - 1 ≤ m
  ts : a.ctx = b.ctx → a.seg = b.seg → a.virt = b.virt → b.ts - a.ts ≤ m
  same : a.addr = b.addr → b.read = true → b.value = a.value
  fresh : a.addr ≠ b.addr → b.read = true → ZeroInit (b.seg : F) → b.value = 0
  strict : a.addr = b.addr → a.ts = b.ts → a = b

/-- The neighbours' relation before the gaps are filled. -/
structure Near (m : ℕ) (a b : Op) : Prop where
  le : Op.le a b = true
  ctx : b.ctx - a.ctx - 1 ≤ m
  seg : b.seg - a.seg - 1 ≤ m
  same : a.addr = b.addr → b.read = true → b.value = a.value
  fresh : a.addr ≠ b.addr → b.read = true → ZeroInit (b.seg : F) → b.value = 0
  strict : a.addr = b.addr → a.ts = b.ts → a = b

/-- The dummies between `a` and `b`, in order: a chain of good neighbours. -/
structure Bridge (m : ℕ) (a b : Op) (t : ℕ) (l : List Op) : Prop where
  chain : (a :: l ++ [b]).IsChain (Good m)
  dummy : ∀ d ∈ l, d.filter = false ∧ d.read = true
  bound : ∀ d ∈ l, d.ctx = b.ctx ∧ d.seg = b.seg ∧ d.virt ≤ b.virt ∧ 1 ≤ d.ts ∧ d.ts ≤ t ∧ (d.value = a.value ∨ d.value = 0)
  place : ∀ d ∈ l, (d.addr ≠ a.addr ∧ d.addr ≠ b.addr) ∨ (d.addr = b.addr ∧ d.ts < b.ts)

theorem fillDown_bridge {m : ℕ} (hm : 1 ≤ m) {a : Op} (fuel : ℕ) (b : Op) (hfuel : b.virt ≤ fuel) (h : Near m a b)
    (hne : a.ctx ≠ b.ctx ∨ a.seg ≠ b.seg) : Bridge m a b (a.ts + 1) (fillDown m a.ts fuel b).reverse := by
  induction fuel generalizing b with
  | zero =>
    refine ⟨?_, by simp [fillDown], by simp [fillDown], by simp [fillDown]⟩
    simp only [fillDown, List.reverse_nil, List.cons_append, List.nil_append, List.isChain_cons_cons, List.isChain_singleton, and_true]
    exact ⟨h.le, fun _ => ⟨h.ctx, by omega⟩, fun _ _ => ⟨h.seg, by omega⟩, fun e e' => by omega, fun e e' => by omega, h.same, h.fresh, h.strict⟩
  | succ fuel ih =>
    unfold fillDown
    by_cases hv : b.virt > m
    · rw [if_pos hv]
      simp only [List.reverse_cons]
      have hd : Near m a (b.dummy (b.virt - m) (a.ts + 1) 0) := by
        have hle := h.le
        rw [Op.le_iff] at hle
        have hx : a.addr ≠ (b.dummy (b.virt - m) (a.ts + 1) 0).addr := by
          intro e; unfold Op.addr Op.dummy at e; simp only [Prod.mk.injEq] at e; omega
        refine ⟨?_, h.ctx, h.seg, fun e => absurd e hx, fun _ _ _ => rfl, fun e => absurd e hx⟩
        rw [Op.le_iff]; simp only [Op.dummy]; omega
      obtain ⟨hc, hdum, hb, -⟩ := ih _ (by simp only [Op.dummy]; omega) hd (by simpa only [Op.dummy] using hne)
      refine ⟨?_, ?_, ?_, ?_⟩
      · rw [← List.cons_append, List.append_assoc, List.singleton_append]
        rw [List.isChain_append_cons_cons]
        refine ⟨hc, ?_, List.isChain_singleton _⟩
        have hx : (b.dummy (b.virt - m) (a.ts + 1) 0).addr ≠ b.addr := by
          intro e; unfold Op.addr Op.dummy at e; simp only [Prod.mk.injEq] at e; omega
        have hy : a.addr ≠ b.addr := by
          intro e; unfold Op.addr at e; simp only [Prod.mk.injEq] at e; omega
        refine ⟨?_, fun e => absurd rfl e, fun _ e => absurd rfl e, fun _ _ _ => ?_, fun _ _ e => ?_, fun e => absurd e hx, fun _ => h.fresh hy, fun e => absurd e hx⟩
        · rw [Op.le_iff]; exact .inr ⟨rfl, .inr ⟨rfl, .inl (by simp only [Op.dummy]; omega)⟩⟩
        · simp only [Op.dummy]; omega
        · simp only [Op.dummy] at e; omega
      · intro d hd
        rcases List.mem_append.1 hd with hd | hd
        · exact hdum d hd
        · rw [List.mem_singleton.1 hd]; exact ⟨rfl, rfl⟩
      · intro d hd
        rcases List.mem_append.1 hd with hd | hd
        · obtain ⟨h1, h2, h3, h4, h5, h6⟩ := hb d hd
          simp only [Op.dummy] at h1 h2 h3 h5
          exact ⟨h1, h2, by omega, h4, h5, h6⟩
        · rw [List.mem_singleton.1 hd]
          exact ⟨rfl, rfl, Nat.sub_le _ _, Nat.le_add_left _ _, le_refl _, .inr rfl⟩
      · intro d hd
        have hcs : d.ctx = b.ctx ∧ d.seg = b.seg ∧ d.virt ≤ b.virt - m := by
          rcases List.mem_append.1 hd with hd | hd
          · obtain ⟨h1, h2, h3, -⟩ := hb d hd; exact ⟨h1, h2, h3⟩
          · rw [List.mem_singleton.1 hd]; exact ⟨rfl, rfl, le_refl _⟩
        left
        unfold Op.addr
        simp only [ne_eq, Prod.mk.injEq]
        omega
    · rw [if_neg hv]
      refine ⟨?_, by simp, by simp, by simp⟩
      simp only [List.reverse_nil, List.cons_append, List.nil_append, List.isChain_cons_cons, List.isChain_singleton, and_true]
      exact ⟨h.le, fun _ => ⟨h.ctx, by omega⟩, fun _ _ => ⟨h.seg, by omega⟩, fun e e' => by omega, fun e e' => by omega, h.same, h.fresh, h.strict⟩

theorem fillUp_range {m : ℕ} (virt fuel : ℕ) (a : Op) : ∀ x ∈ fillUp m virt fuel a, a.virt < x.virt ∧ x.virt < virt := by
  induction fuel generalizing a with
  | zero => simp [fillUp]
  | succ fuel ih =>
    unfold fillUp
    by_cases hv : virt - a.virt - 1 > m
    · rw [if_pos hv]
      intro x hx
      rcases List.mem_cons.1 hx with hx | hx
      · rw [hx]; simp only [Op.dummy]; omega
      · have := ih _ x hx
        simp only [Op.dummy] at this
        omega
    · rw [if_neg hv]; simp

theorem fillUp_bridge {m : ℕ} {b : Op} (fuel : ℕ) (a : Op) (hfuel : b.virt ≤ fuel + a.virt) (h : Near m a b) (hc : a.ctx = b.ctx) (hs : a.seg = b.seg)
    (hv : a.virt ≠ b.virt) : Bridge m a b (a.ts + (b.virt - a.virt)) (fillUp m b.virt fuel a) := by
  have hle := h.le
  rw [Op.le_iff] at hle
  have hne : ∀ {x y : Op}, x.virt ≠ y.virt → x.addr ≠ y.addr := by
    intro x y hxy e; unfold Op.addr at e; simp only [Prod.mk.injEq] at e; omega
  induction fuel generalizing a with
  | zero => omega
  | succ fuel ih =>
    unfold fillUp
    by_cases hg : b.virt - a.virt - 1 > m
    · rw [if_pos hg]
      have hd : Near m (a.dummy (a.virt + (m + 1)) (a.ts + 1) 0) b := by
        refine ⟨?_, h.ctx, h.seg, fun e => absurd e (hne (show a.virt + (m + 1) ≠ b.virt by omega)), fun _ => h.fresh (hne hv),
          fun e => absurd e (hne (show a.virt + (m + 1) ≠ b.virt by omega))⟩
        rw [Op.le_iff]; simp only [Op.dummy]; omega
      obtain ⟨hch, hdum, hb, -⟩ := ih _ (by simp only [Op.dummy]; omega) hd hc hs (show a.virt + (m + 1) ≠ b.virt by omega)
        (by simp only [Op.dummy]; omega)
      refine ⟨?_, ?_, ?_, ?_⟩
      · refine List.isChain_cons_cons.2 ⟨?_, hch⟩
        refine ⟨?_, fun e => absurd rfl e, fun _ e => absurd rfl e, fun _ _ _ => ?_, fun _ _ e => ?_,
          fun e => absurd e (hne (show a.virt ≠ a.virt + (m + 1) by omega)), fun _ _ _ => rfl,
          fun e => absurd e (hne (show a.virt ≠ a.virt + (m + 1) by omega))⟩
        · rw [Op.le_iff]; exact .inr ⟨rfl, .inr ⟨rfl, .inl (by simp only [Op.dummy]; omega)⟩⟩
        · simp only [Op.dummy]; omega
        · simp only [Op.dummy] at e; omega
      · intro d hd
        rcases List.mem_cons.1 hd with hd | hd
        · rw [hd]; exact ⟨rfl, rfl⟩
        · exact hdum d hd
      · intro d hd
        rcases List.mem_cons.1 hd with hd | hd
        · rw [hd]
          exact ⟨hc, hs, show a.virt + (m + 1) ≤ b.virt by omega, Nat.le_add_left _ _, show a.ts + 1 ≤ _ by omega, .inr rfl⟩
        · obtain ⟨h1, h2, h3, h4, h5, h6⟩ := hb d hd
          simp only [Op.dummy] at h5 h6
          exact ⟨h1, h2, h3, h4, by omega, .inr (by omega)⟩
      · intro d hd
        have hlt : a.virt < d.virt ∧ d.virt < b.virt := by
          rcases List.mem_cons.1 hd with hd | hd
          · rw [hd]; exact ⟨show a.virt < a.virt + (m + 1) by omega, show a.virt + (m + 1) < b.virt by omega⟩
          · have := fillUp_range _ _ _ d hd
            simp only [Op.dummy] at this
            omega
        exact .inl ⟨hne (by omega), hne (by omega)⟩
    · rw [if_neg hg]
      refine ⟨?_, by simp, by simp, by simp⟩
      simp only [List.cons_append, List.nil_append, List.isChain_cons_cons, List.isChain_singleton, and_true]
      exact ⟨h.le, fun e => absurd hc e, fun _ e => absurd hs e, fun _ _ _ => by omega, fun _ _ e => absurd e hv, h.same, h.fresh, h.strict⟩

theorem fillTime_bridge {m : ℕ} (hm : 1 ≤ m) {b : Op} (fuel : ℕ) (a : Op) (hfuel : b.ts ≤ fuel + a.ts) (h : Near m a b) (he : a.addr = b.addr) :
    Bridge m a b b.ts (fillTime m b.ts fuel a) := by
  have hle := h.le
  rw [Op.le_iff] at hle
  have he' := he
  unfold Op.addr at he'
  simp only [Prod.mk.injEq] at he'
  obtain ⟨hc, hs, hv⟩ := he'
  induction fuel generalizing a with
  | zero =>
    refine ⟨?_, by simp [fillTime], by simp [fillTime], by simp [fillTime]⟩
    simp only [fillTime, List.cons_append, List.nil_append, List.isChain_cons_cons, List.isChain_singleton, and_true]
    exact ⟨h.le, fun e => absurd hc e, fun _ e => absurd hs e, fun _ _ e => absurd hv e, fun _ _ _ => by omega, h.same, h.fresh, h.strict⟩
  | succ fuel ih =>
    unfold fillTime
    by_cases hg : b.ts - a.ts > m
    · rw [if_pos hg]
      have hd : Near m (a.dummy a.virt (a.ts + m) a.value) b := by
        refine ⟨?_, h.ctx, h.seg, fun _ => h.same he, fun e => absurd he e, fun _ e => by simp only [Op.dummy] at e; omega⟩
        rw [Op.le_iff]; simp only [Op.dummy]; omega
      obtain ⟨hch, hdum, hb, hpl⟩ := ih _ (by simp only [Op.dummy]; omega) hd he
        (by simp only [Op.dummy]; omega) hc hs hv
      refine ⟨?_, ?_, ?_, ?_⟩
      · refine List.isChain_cons_cons.2 ⟨?_, hch⟩
        refine ⟨?_, fun e => absurd rfl e, fun _ e => absurd rfl e, fun _ _ e => absurd rfl e, fun _ _ _ => ?_, fun _ _ => rfl,
          fun e => absurd rfl e, fun _ e => by simp only [Op.dummy] at e; omega⟩
        · rw [Op.le_iff]; exact .inr ⟨rfl, .inr ⟨rfl, .inr ⟨rfl, Nat.le_add_right _ _⟩⟩⟩
        · simp only [Op.dummy]; omega
      · intro d hd
        rcases List.mem_cons.1 hd with hd | hd
        · rw [hd]; exact ⟨rfl, rfl⟩
        · exact hdum d hd
      · intro d hd
        rcases List.mem_cons.1 hd with hd | hd
        · rw [hd]
          exact ⟨hc, hs, show a.virt ≤ b.virt by omega, show 1 ≤ a.ts + m by omega, show a.ts + m ≤ _ by omega, .inl rfl⟩
        · exact hb d hd
      · intro d hd
        rcases List.mem_cons.1 hd with hd | hd
        · rw [hd]; exact .inr ⟨he, show a.ts + m < b.ts by omega⟩
        · exact hpl d hd
    · rw [if_neg hg]
      refine ⟨?_, by simp, by simp, by simp⟩
      simp only [List.cons_append, List.nil_append, List.isChain_cons_cons, List.isChain_singleton, and_true]
      exact ⟨h.le, fun e => absurd hc e, fun _ e => absurd hs e, fun _ _ e => absurd hv e, fun _ _ _ => by omega, h.same, h.fresh, h.strict⟩

/-- Between two neighbours, the pushed dummies in the order of a bridge. -/
theorem fillPair_bridge {m : ℕ} (hm : 1 ≤ m) {a b : Op} (h : Near m a b) :
    ∃ l, l.Perm (fillPair m a b) ∧ Bridge m a b (a.ts + b.virt + b.ts + 1) l := by
  have mono : ∀ {t t' l}, t ≤ t' → Bridge m a b t l → Bridge m a b t' l := fun ht hb =>
    ⟨hb.chain, hb.dummy, fun d hd => by obtain ⟨h1, h2, h3, h4, h5, h6⟩ := hb.bound d hd; exact ⟨h1, h2, h3, h4, by omega, h6⟩, hb.place⟩
  unfold fillPair
  by_cases h1 : a.ctx ≠ b.ctx ∨ a.seg ≠ b.seg
  · rw [if_pos h1]
    exact ⟨_, List.reverse_perm _, mono (by omega) (fillDown_bridge hm _ b (le_refl _) h h1)⟩
  · rw [if_neg h1]
    push Not at h1
    by_cases h2 : a.virt ≠ b.virt
    · rw [if_pos h2]
      exact ⟨_, List.Perm.refl _, mono (by omega) (fillUp_bridge _ a (by omega) h h1.1 h1.2 h2)⟩
    · rw [if_neg h2]
      push Not at h2
      exact ⟨_, List.Perm.refl _, mono (by omega) (fillTime_bridge hm _ a (by omega) h (by unfold Op.addr; rw [h1.1, h1.2, h2]))⟩

/-- The number of dummies between two neighbours. -/
theorem fillDown_length {m : ℕ} (ts fuel : ℕ) (b : Op) : (fillDown m ts fuel b).length * m ≤ b.virt := by
  induction fuel generalizing b with
  | zero => simp [fillDown]
  | succ fuel ih =>
    unfold fillDown
    by_cases hv : b.virt > m
    · rw [if_pos hv]
      have := ih (b.dummy (b.virt - m) (ts + 1) 0)
      simp only [Op.dummy] at this
      simp only [List.length_cons, Nat.succ_mul, Op.dummy]
      omega
    · rw [if_neg hv]; simp

theorem fillUp_length {m : ℕ} (virt fuel : ℕ) (a : Op) : (fillUp m virt fuel a).length * m ≤ virt - a.virt := by
  induction fuel generalizing a with
  | zero => simp [fillUp]
  | succ fuel ih =>
    unfold fillUp
    by_cases hv : virt - a.virt - 1 > m
    · rw [if_pos hv]
      have := ih (a.dummy (a.virt + (m + 1)) (a.ts + 1) 0)
      simp only [Op.dummy] at this
      simp only [List.length_cons, Nat.succ_mul, Op.dummy]
      omega
    · rw [if_neg hv]; simp

theorem fillTime_length {m : ℕ} (ts fuel : ℕ) (a : Op) : (fillTime m ts fuel a).length * m ≤ ts - a.ts := by
  induction fuel generalizing a with
  | zero => simp [fillTime]
  | succ fuel ih =>
    unfold fillTime
    by_cases hv : ts - a.ts > m
    · rw [if_pos hv]
      have := ih (a.dummy a.virt (a.ts + m) a.value)
      simp only [Op.dummy] at this
      simp only [List.length_cons, Nat.succ_mul, Op.dummy]
      omega
    · rw [if_neg hv]; simp

theorem fillPair_length {m B : ℕ} {a b : Op} (hv : b.virt ≤ B) (ht : b.ts ≤ B) : (fillPair m a b).length * m ≤ B := by
  unfold fillPair
  split
  · exact (fillDown_length _ _ _).trans hv
  · split
    · exact (fillUp_length _ _ _).trans (by omega)
    · exact (fillTime_length _ _ _).trans (by omega)

theorem fillAll_length {m B : ℕ} (l : List Op) (hv : ∀ o ∈ l, o.virt ≤ B ∧ o.ts ≤ B) : (fillAll m l).length * m ≤ (l.length - 1) * B := by
  induction l with
  | nil => simp [fillAll]
  | cons a t ih =>
    cases t with
    | nil => simp [fillAll]
    | cons b t =>
      have := ih (fun o ho => hv o (List.mem_cons_of_mem _ ho))
      obtain ⟨h1, h2⟩ := hv b (by simp)
      have hp := fillPair_length (m := m) (a := a) h1 h2
      unfold fillAll
      simp only [List.length_append, List.length_cons, Nat.add_mul, Nat.add_sub_cancel] at *
      omega

/-- The sorted list with its gaps filled: a chain of good neighbours with the same first and last operation. -/
structure Woven (m : ℕ) (S W : List Op) : Prop where
  perm : W.Perm (S ++ fillAll m S)
  chain : W.IsChain (Good m)
  head : W.head? = S.head?
  last : W.getLast? = S.getLast?

theorem weave {m : ℕ} (hm : 1 ≤ m) (S : List Op) (h : S.IsChain (Near m)) : ∃ W, Woven m S W := by
  induction S with
  | nil => exact ⟨[], by simp [fillAll], List.IsChain.nil, rfl, rfl⟩
  | cons a t ih =>
    cases t with
    | nil => exact ⟨[a], by simp [fillAll], List.isChain_singleton _, rfl, rfl⟩
    | cons b t =>
      obtain ⟨hab, ht⟩ := List.isChain_cons_cons.1 h
      obtain ⟨W, hp, hc, hh, hl⟩ := ih ht
      obtain ⟨l, hlp, hb⟩ := fillPair_bridge hm hab
      match W, hh with
      | w :: W', hh =>
        simp only [List.head?_cons, Option.some.injEq] at hh
        subst hh
        refine ⟨a :: l ++ (w :: W'), ?_, ?_, rfl, ?_⟩
        · unfold fillAll
          simp only [List.cons_append]
          refine List.Perm.cons a ?_
          calc (l ++ w :: W').Perm (fillPair m a w ++ (w :: t ++ fillAll m (w :: t))) := List.Perm.append hlp hp
            _ |>.Perm _ := by
              rw [← List.append_assoc, ← List.cons_append, ← List.append_assoc]
              exact List.Perm.append_right _ List.perm_append_comm
        · exact List.isChain_split.2 ⟨hb.chain, hc⟩
        · rw [List.getLast?_append_of_ne_nil _ (by simp), hl]
          simp [List.getLast?_cons_cons]

/-- What is known of every operation of the filled list. -/
theorem fillAll_bound {m : ℕ} (hm : 1 ≤ m) (S : List Op) (h : S.IsChain (Near m)) {B : ℕ}
    (hB : ∀ o ∈ S, o.virt < 2 ^ 32 ∧ o.ts < B ∧ o.value < 2 ^ 256) :
    ∀ d ∈ fillAll m S, d.filter = false ∧ d.read = true ∧ (∃ b ∈ S, d.ctx = b.ctx ∧ d.seg = b.seg) ∧ d.virt < 2 ^ 32 ∧ 1 ≤ d.ts ∧ d.ts < 2 * B + 2 ^ 32 ∧
      d.value < 2 ^ 256 := by
  induction S with
  | nil => simp [fillAll]
  | cons a t ih =>
    cases t with
    | nil => simp [fillAll]
    | cons b t =>
      obtain ⟨hab, ht⟩ := List.isChain_cons_cons.1 h
      intro d hd
      unfold fillAll at hd
      rcases List.mem_append.1 hd with hd | hd
      · obtain ⟨l, hlp, hb⟩ := fillPair_bridge hm hab
        have hdl := hlp.mem_iff.2 hd
        obtain ⟨h1, h2, h3, h4, h5, h6⟩ := hb.bound d hdl
        obtain ⟨a1, a2, a3⟩ := hB a (by simp)
        obtain ⟨b1, b2, b3⟩ := hB b (by simp)
        refine ⟨(hb.dummy d hdl).1, (hb.dummy d hdl).2, ⟨b, by simp, h1, h2⟩, by omega, h4, by omega, by rcases h6 with h6 | h6 <;> omega⟩
      · obtain ⟨h1, h2, ⟨c, hc, hc'⟩, h3⟩ := ih ht (fun o ho => hB o (List.mem_cons_of_mem _ ho)) d hd
        exact ⟨h1, h2, ⟨c, List.mem_cons_of_mem _ hc, hc'⟩, h3⟩

/-- A dummy is alone at its address, or a later operation that was there before has its address. -/
theorem fillAll_place {m : ℕ} (hm : 1 ≤ m) (S : List Op) (h : S.IsChain (Near m)) :
    ∀ d ∈ fillAll m S, (∀ o ∈ S.head?, Op.le o d = true) ∧ ((∀ r ∈ S, r.addr ≠ d.addr) ∨ ∃ y ∈ S, y.addr = d.addr ∧ d.ts < y.ts) := by
  induction S with
  | nil => simp [fillAll]
  | cons a t ih =>
    cases t with
    | nil => simp [fillAll]
    | cons b t =>
      obtain ⟨hab, ht⟩ := List.isChain_cons_cons.1 h
      have hbt : ∀ r ∈ b :: t, Op.le b r = true := by
        have : IsTrans Op (fun a b => Op.le a b = true) := ⟨Op.le_trans⟩
        have hp := List.isChain_iff_pairwise.1 (ht.imp (fun _ _ g => g.le))
        intro r hr
        rcases List.mem_cons.1 hr with rfl | hr
        · rw [Op.le_iff]; omega
        · exact (List.pairwise_cons.1 hp).1 r hr
      intro d hd
      unfold fillAll at hd
      rcases List.mem_append.1 hd with hd | hd
      · obtain ⟨l, hlp, hb⟩ := fillPair_bridge hm hab
        have hdl := hlp.mem_iff.2 hd
        have : IsTrans Op (fun a b => Op.le a b = true) := ⟨Op.le_trans⟩
        have hp := List.isChain_iff_pairwise.1 (hb.chain.imp (fun _ _ g => g.le))
        rw [List.cons_append] at hp
        obtain ⟨hp1, hp2⟩ := List.pairwise_cons.1 hp
        have h1 : Op.le a d = true := hp1 d (List.mem_append_left _ hdl)
        have h2 : Op.le d b = true := (List.pairwise_append.1 hp2).2.2 d hdl b (by simp)
        refine ⟨by rintro o ⟨⟩; exact h1, ?_⟩
        rcases hb.place d hdl with ⟨h3, h4⟩ | ⟨h3, h4⟩
        · left
          intro r hr
          rcases List.mem_cons.1 hr with rfl | hr
          · exact fun e => h3 e.symm
          · intro e
            have h5 := hbt r hr
            rw [Op.le_iff] at h1 h2 h5
            unfold Op.addr at h4 e
            simp only [ne_eq, Prod.mk.injEq] at h4 e
            omega
        · exact .inr ⟨b, by simp, h3.symm, h4⟩
      · obtain ⟨h1, h2⟩ := ih ht d hd
        have hbd := h1 b rfl
        refine ⟨by rintro o ⟨⟩; exact Op.le_trans _ _ _ hab.le hbd, ?_⟩
        rcases h2 with h2 | ⟨y, hy, hy'⟩
        · left
          intro r hr
          rcases List.mem_cons.1 hr with rfl | hr
          · intro e
            have h3 := h2 b (by simp)
            have h4 := hab.le
            rw [Op.le_iff] at hbd h4
            unfold Op.addr at h3 e
            simp only [ne_eq, Prod.mk.injEq] at h3 e
            omega
          · exact h2 r hr
        · exact .inr ⟨y, List.mem_cons_of_mem _ hy, hy'⟩

end Verif.Stark.Memory
