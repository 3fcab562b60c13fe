import Verif.Stark.Memory.Fill
import Mathlib.Data.List.Pairwise

/-! Histories of memory operations, and the operations of the rows generated for them. -/

namespace Verif.Stark.Memory

/-- Segments whose words are zero before their first write. (Specification: all but code, trie data and the two linked lists.) -/
def StartsZero (seg : ℕ) : Prop := seg ≠ 0 ∧ seg ≠ 12 ∧ seg ≠ 34 ∧ seg ≠ 35

/-- The initial values as writes at time zero, and the operations. -/
def allOps (ops : List Op) (before : List (Addr × ℕ)) : List Op := ops ++ before.map initial

/-- `w` is the last write to the address of `r` before `r`. (Specification.) -/
def LastWrite (all : List Op) (r w : Op) : Prop :=
  w ∈ all ∧ w.read = false ∧ w.addr = r.addr ∧ w.ts < r.ts ∧ ∀ w' ∈ all, w'.read = false → w'.addr = r.addr → w'.ts < r.ts → w'.ts ≤ w.ts

/-- A history of a memory whose words were `before` (at the given addresses) or `init` (elsewhere): each read returns the last write. (Specification.) -/
structure History (init : Addr → ℕ) (before : List (Addr × ℕ)) (ops : List Op) : Prop where
  some : ops ≠ [] ∨ before ≠ []
  real : ∀ o ∈ ops, o.filter = true
  later : ∀ o ∈ ops, 1 ≤ o.ts
  once : (before.map Prod.fst).Nodup
  unique : ∀ o ∈ ops, ∀ o' ∈ ops, o.addr = o'.addr → o.ts = o'.ts → o = o'
  zero : ∀ a : Addr, StartsZero a.2.1 → init a = 0
  reads : ∀ r ∈ ops, r.read = true →
    (∃ w, LastWrite (allOps ops before) r w ∧ r.value = w.value) ∨ ((¬ ∃ w, LastWrite (allOps ops before) r w) ∧ r.value = init r.addr)

/-- The sizes of the code's types and tables: offsets of 32 bits, fewer than `2^35` time steps and at most `2^40` operations; contexts and segments are
numbered below the number of operations, which `fill_gaps` presupposes (`memory_stark.rs:321-329`). -/
structure Sized (before : List (Addr × ℕ)) (ops : List Op) : Prop where
  count : (allOps ops before).length ≤ 2 ^ 40
  op : ∀ o ∈ allOps ops before, o.ctx < (allOps ops before).length ∧ o.seg < (allOps ops before).length ∧ o.virt < 2 ^ 32 ∧ o.ts < 2 ^ 35 ∧ o.value < 2 ^ 256

section
variable {init : Addr → ℕ} {before : List (Addr × ℕ)} {ops : List Op}

theorem zeroInit_of {s : ℕ} (h : ZeroInit (s : F)) : StartsZero s := by
  obtain ⟨h1, h2, h3, h4⟩ := h
  exact ⟨fun e => h1 (by rw [e]; rfl), fun e => h2 (by rw [e]; rfl), fun e => h3 (by rw [e]; rfl), fun e => h4 (by rw [e]; rfl)⟩

theorem mem_allOps {o : Op} : o ∈ allOps ops before ↔ o ∈ ops ∨ ∃ v ∈ before, initial v = o := by
  unfold allOps; rw [List.mem_append, List.mem_map]

theorem initial_addr (v : Addr × ℕ) : (initial v).addr = v.1 := rfl

theorem History.unique' (h : History init before ops) : ∀ o ∈ allOps ops before, ∀ o' ∈ allOps ops before, o.addr = o'.addr → o.ts = o'.ts → o = o' := by
  intro o ho o' ho' ha ht
  rcases mem_allOps.1 ho with h1 | ⟨v, hv, rfl⟩ <;> rcases mem_allOps.1 ho' with h2 | ⟨v', hv', rfl⟩
  · exact h.unique o h1 o' h2 ha ht
  · have := h.later o h1; have : (initial v').ts = 0 := rfl; omega
  · have := h.later o' h2; have : (initial v).ts = 0 := rfl; omega
  · rw [initial_addr, initial_addr] at ha
    rw [List.inj_on_of_nodup_map h.once hv hv' ha]

theorem History.real' (h : History init before ops) : ∀ o ∈ allOps ops before, o.filter = true := by
  intro o ho
  rcases mem_allOps.1 ho with h1 | ⟨v, hv, rfl⟩
  · exact h.real o h1
  · rfl

theorem History.reads' (h : History init before ops) : ∀ r ∈ allOps ops before, r.read = true →
    (∃ w, LastWrite (allOps ops before) r w ∧ r.value = w.value) ∨ ((¬ ∃ w, LastWrite (allOps ops before) r w) ∧ r.value = init r.addr) := by
  intro r hr hread
  rcases mem_allOps.1 hr with h1 | ⟨v, hv, rfl⟩
  · exact h.reads r h1 hread
  · exact absurd hread (by simp [initial])

/-- Neighbours in the sorted list. -/
theorem History.near (h : History init before ops) {N : ℕ} (hN : ∀ o ∈ allOps ops before, o.ctx ≤ N ∧ o.seg ≤ N) {a b : Op} {l₁ l₂ : List Op}
    (hs : sorted (allOps ops before) = l₁ ++ a :: b :: l₂) : Near N a b := by
  have hp := sorted_pairwise (allOps ops before)
  have hmem : ∀ o, o ∈ allOps ops before ↔ o ∈ l₁ ++ a :: b :: l₂ := fun o => by rw [← hs]; exact (sorted_perm _).mem_iff.symm
  rw [hs] at hp
  have hle : Op.le a b = true := by
    have := (List.pairwise_append.1 hp).2.1
    exact (List.pairwise_cons.1 this).1 b (by simp)
  have ha : a ∈ allOps ops before := (hmem a).2 (by simp)
  have hb : b ∈ allOps ops before := (hmem b).2 (by simp)
  -- nothing is strictly between
  have hbetween : ∀ w ∈ allOps ops before, Op.le w a = true ∨ Op.le b w = true := by
    intro w hw
    rcases List.mem_append.1 ((hmem w).1 hw) with hw | hw
    · exact .inl ((List.pairwise_append.1 hp).2.2 w hw a (by simp))
    · rcases List.mem_cons.1 hw with rfl | hw
      · left; rw [Op.le_iff]; omega
      · rcases List.mem_cons.1 hw with rfl | hw
        · right; rw [Op.le_iff]; omega
        · right
          have := (List.pairwise_append.1 hp).2.1
          exact (List.pairwise_cons.1 (List.pairwise_cons.1 this).2).1 w hw
  have hle' := hle
  rw [Op.le_iff] at hle'
  obtain ⟨hbc, hbs⟩ := hN b hb
  refine ⟨hle, by omega, by omega, ?_, ?_, h.unique' a ha b hb⟩
  · intro he hr
    by_cases ht : a.ts = b.ts
    · rw [h.unique' a ha b hb he ht]
    have hab : a.ts < b.ts := by
      unfold Op.addr at he; simp only [Prod.mk.injEq] at he; omega
    have hbet : ∀ w ∈ allOps ops before, w.addr = b.addr → w.ts < b.ts → w.ts ≤ a.ts := by
      intro w hw hwa hwt
      rcases hbetween w hw with hx | hx <;> rw [Op.le_iff] at hx <;> unfold Op.addr at he hwa <;> simp only [Prod.mk.injEq] at he hwa <;> omega
    cases har : a.read with
    | false =>
      rcases h.reads' b hb hr with ⟨w, ⟨hw, hwr, hwa, hwt, hwl⟩, hv⟩ | ⟨hno, -⟩
      · have h1 := hwl a ha har he hab
        have h2 := hbet w hw hwa hwt
        rw [hv, h.unique' w hw a ha (hwa.trans he.symm) (by omega)]
      · exact absurd ⟨a, ha, har, he, hab, fun w hw _ hwa hwt => hbet w hw hwa hwt⟩ hno
    | true =>
      have hsame : ∀ w, LastWrite (allOps ops before) b w → LastWrite (allOps ops before) a w := by
        rintro w ⟨hw, hwr, hwa, hwt, hwl⟩
        have h2 := hbet w hw hwa hwt
        refine ⟨hw, hwr, hwa.trans he.symm, ?_, fun w' hw' hr' ha' ht' => hwl w' hw' hr' (ha'.trans he) (by omega)⟩
        rcases Nat.lt_or_eq_of_le h2 with h2 | h2
        · exact h2
        · rw [h.unique' w hw a ha (hwa.trans he.symm) h2, har] at hwr; cases hwr
      have hsame' : ∀ w, LastWrite (allOps ops before) a w → LastWrite (allOps ops before) b w := by
        rintro w ⟨hw, hwr, hwa, hwt, hwl⟩
        refine ⟨hw, hwr, hwa.trans he, by omega, fun w' hw' hr' ha' ht' => ?_⟩
        have h2 := hbet w' hw' ha' ht'
        rcases Nat.lt_or_eq_of_le h2 with h2 | h2
        · exact hwl w' hw' hr' (ha'.trans he.symm) h2
        · rw [h.unique' w' hw' a ha (ha'.trans he.symm) h2, har] at hr'; cases hr'
      have huniq : ∀ w w', LastWrite (allOps ops before) a w → LastWrite (allOps ops before) a w' → w = w' := by
        rintro w w' ⟨hw, hwr, hwa, hwt, hwl⟩ ⟨hw', hwr', hwa', hwt', hwl'⟩
        have := hwl w' hw' hwr' hwa' hwt'
        have := hwl' w hw hwr hwa hwt
        exact h.unique' w hw w' hw' (hwa.trans hwa'.symm) (by omega)
      rcases h.reads' b hb hr with ⟨w, hw, hv⟩ | ⟨hno, hv⟩ <;> rcases h.reads' a ha har with ⟨w', hw', hv'⟩ | ⟨hno', hv'⟩
      · rw [hv, hv', huniq w w' (hsame w hw) hw']
      · exact absurd ⟨w, hsame w hw⟩ hno'
      · exact absurd ⟨w', hsame' w' hw'⟩ hno
      · rw [hv, hv', he]
  · intro he hr hz
    rcases h.reads' b hb hr with ⟨w, ⟨hw, hwr, hwa, hwt, hwl⟩, hv⟩ | ⟨hno, hv⟩
    · exfalso
      have hx := hbetween w hw
      rw [Op.le_iff, Op.le_iff] at hx
      unfold Op.addr at he hwa
      simp only [ne_eq, Prod.mk.injEq] at he hwa
      omega
    · rw [hv]; exact h.zero _ (zeroInit_of hz)

end

/-- What the generation makes of a history: the operations of the table's rows. -/
structure Final (all : List Op) (m : ℕ) (L : List Op) : Prop where
  chain : L.IsChain (Good m)
  height : m < L.length
  small : L.length ≤ 2 ^ 42
  head : ∀ o, L.head? = some o → o.virt = 0
  last : ∀ o, L.getLast? = some o → o.filter = false ∧ o.value = 0
  real : (L.filter (·.filter)).Perm all
  dummy : ∀ o ∈ L, o.filter = false → o.read = true ∧ 1 ≤ o.ts
  covered : ∀ d ∈ L, d.filter = false → (∀ r ∈ all, r.addr ≠ d.addr) ∨ ∃ y ∈ L, y.addr = d.addr ∧ d.ts < y.ts
  bound : ∀ o ∈ L, o.ctx < L.length ∧ o.seg < L.length ∧ o.virt ≤ 2 ^ 32 ∧ o.ts < 2 ^ 37 ∧ o.value < 2 ^ 256

theorem nextPow_ge (k : ℕ) : k ≤ Logic.nextPow k := Nat.le_pow_clog (by decide) k

theorem nextPow_le {k : ℕ} (hk : 1 ≤ k) : Logic.nextPow k ≤ 2 * k := by
  unfold Logic.nextPow
  rcases Nat.lt_or_ge k 2 with h | h
  · have : k = 1 := by omega
    subst this; simp
  · have hp := Nat.pow_pred_clog_lt_self (b := 2) (by decide) (show 1 < k by omega)
    have hpos : 0 < Nat.clog 2 k := Nat.clog_pos (by decide) h
    obtain ⟨c, hc⟩ := Nat.exists_eq_succ_of_ne_zero (Nat.pos_iff_ne_zero.1 hpos)
    rw [hc] at hp ⊢
    simp only [Nat.pred_succ] at hp
    rw [Nat.pow_succ]; omega

theorem nextPow_mono {k l : ℕ} (h : k ≤ l) : Logic.nextPow k ≤ Logic.nextPow l :=
  Nat.pow_le_pow_right (by decide) (Nat.clog_mono_right 2 h)

theorem chain_eq {m : ℕ} {W : List Op} (h : W.IsChain (Good m)) : ∀ a ∈ W, ∀ b ∈ W, Op.le a b = true → Op.le b a = true → a = b := by
  have ht : W.IsChain (fun a b => Op.le a b = true ∧ (Op.le b a = true → a = b)) :=
    h.imp (fun a b g => ⟨g.le, fun g' => by obtain ⟨h1, h2⟩ := Op.sameKey_of_le g.le g'; exact g.strict h1 h2⟩)
  have hp : W.Pairwise (fun a b => Op.le a b = true ∧ (Op.le b a = true → a = b)) := by
    have : IsTrans Op (fun a b => Op.le a b = true ∧ (Op.le b a = true → a = b)) := ⟨fun a b c h1 h2 =>
      ⟨Op.le_trans _ _ _ h1.1 h2.1, fun h3 => (h1.2 (Op.le_trans _ _ _ h2.1 h3)).trans (h2.2 (Op.le_trans _ _ _ h3 h1.1))⟩⟩
    exact List.isChain_iff_pairwise.1 ht
  have : Std.Symm (fun a b => Op.le a b = true → Op.le b a = true → a = b) := ⟨fun a b hab h1 h2 => (hab h2 h1).symm⟩
  exact fun a ha b hb => List.Pairwise.forall_of_forall (R := fun a b => Op.le a b = true → Op.le b a = true → a = b)
    (fun _ _ _ _ => rfl) (hp.imp (fun g _ => g.2)) ha hb

theorem chain_le {m : ℕ} {W : List Op} (h : W.IsChain (Good m)) : W.Pairwise (fun a b => Op.le a b = true) := by
  have : IsTrans Op (fun a b => Op.le a b = true) := ⟨Op.le_trans⟩
  exact List.isChain_iff_pairwise.1 (h.imp (fun _ _ g => g.le))

theorem sorted_eq {m : ℕ} {W l : List Op} (h : W.IsChain (Good m)) (hp : W.Perm l) : sorted l = W := by
  refine List.Perm.eq_of_pairwise (le := fun a b => Op.le a b = true) ?_ (sorted_pairwise l) (chain_le h) ((sorted_perm l).trans hp.symm)
  intro a b ha hb
  exact chain_eq h a (hp.mem_iff.2 ((sorted_perm l).mem_iff.1 ha)) b hb

section
variable {init : Addr → ℕ} {before : List (Addr × ℕ)} {ops : List Op}

theorem allOps_ne (h : History init before ops) : allOps ops before ≠ [] := by
  intro e
  obtain ⟨h1, h2⟩ := List.append_eq_nil_iff.1 e
  rcases h.some with h' | h'
  · exact h' h1
  · exact h' (List.map_eq_nil_iff.1 h2)

/-- The list with the first dummy read is a chain of near neighbours. -/
theorem withZero_chain (h : History init before ops) {N : ℕ} (hN : ∀ o ∈ allOps ops before, o.ctx ≤ N ∧ o.seg ≤ N) :
    (withZero (sorted (allOps ops before))).IsChain (Near N) := by
  have hc : (sorted (allOps ops before)).IsChain (Near N) :=
    List.isChain_iff_forall_rel_of_append_cons_cons.2 (fun _ _ _ _ hs => h.near hN hs)
  have hm : ∀ o ∈ sorted (allOps ops before), o ∈ allOps ops before := fun o ho => (sorted_perm _).mem_iff.1 ho
  revert hc hm
  generalize hS : sorted (allOps ops before) = S
  cases S with
  | nil => intros; exact List.IsChain.nil
  | cons o t =>
    intro hc hm
    unfold withZero
    by_cases hv : o.virt ≠ 0
    · simp only [if_pos hv]
      refine List.isChain_cons_cons.2 ⟨?_, hc⟩
      obtain ⟨h1, h2⟩ := hN o (hm o List.mem_cons_self)
      have hne : zeroRead.addr ≠ o.addr := by
        intro e; unfold Op.addr zeroRead at e; simp only [Prod.mk.injEq] at e; omega
      refine ⟨?_, by simp only [zeroRead]; omega, by simp only [zeroRead]; omega, fun e => absurd e hne, fun _ hr hz => ?_, fun e => absurd e hne⟩
      · rw [Op.le_iff]; simp only [zeroRead]; omega
      · -- the first operation of its address
        have ho := hm o List.mem_cons_self
        rcases h.reads' o ho hr with ⟨w, ⟨hw, hwr, hwa, hwt, hwl⟩, hv⟩ | ⟨hno, hv⟩
        · exfalso
          have hp := sorted_pairwise (allOps ops before)
          rw [hS] at hp
          have hw' : w ∈ o :: t := by rw [← hS]; exact (sorted_perm _).mem_iff.2 hw
          rcases List.mem_cons.1 hw' with rfl | hw'
          · omega
          · have := (List.pairwise_cons.1 hp).1 w hw'
            rw [Op.le_iff] at this
            unfold Op.addr at hwa
            simp only [Prod.mk.injEq] at hwa
            omega
        · rw [hv]; exact h.zero _ (zeroInit_of hz)
    · simp only [if_neg hv]; exact hc

theorem withZero_mem {l : List Op} {o : Op} (h : o ∈ withZero l) : o ∈ l ∨ o = zeroRead := by
  cases l with
  | nil => exact absurd h (by simp [withZero])
  | cons a t =>
    unfold withZero at h
    by_cases hv : a.virt ≠ 0
    · simp only [if_pos hv] at h
      rcases List.mem_cons.1 h with h | h
      · exact .inr h
      · exact .inl h
    · simp only [if_neg hv] at h; exact .inl h

theorem withZero_sub {l : List Op} {o : Op} (h : o ∈ l) : o ∈ withZero l := by
  cases l with
  | nil => exact absurd h (by simp)
  | cons a t =>
    unfold withZero
    by_cases hv : a.virt ≠ 0
    · simp only [if_pos hv]; exact List.mem_cons_of_mem _ h
    · simp only [if_neg hv]; exact h

/-- No operation has the address of the first dummy read. -/
theorem withZero_alone (h : History init before ops) (hz : zeroRead ∈ withZero (sorted (allOps ops before))) : ∀ r ∈ allOps ops before, r.addr ≠ zeroRead.addr := by
  have hp := sorted_pairwise (allOps ops before)
  have hm : ∀ o, o ∈ allOps ops before ↔ o ∈ sorted (allOps ops before) := fun o => (sorted_perm _).mem_iff.symm
  have hr := h.real'
  revert hp hm hz
  generalize sorted (allOps ops before) = S
  intro hz hp hm
  cases S with
  | nil => intro r hr; exact absurd ((hm r).1 hr) (by simp)
  | cons a t =>
    by_cases hv : a.virt ≠ 0
    · intro r hr' e
      have hle : Op.le a r = true := by
        rcases List.mem_cons.1 ((hm r).1 hr') with rfl | hx
        · rw [Op.le_iff]; omega
        · exact (List.pairwise_cons.1 hp).1 r hx
      rw [Op.le_iff] at hle
      unfold Op.addr zeroRead at e
      simp only [Prod.mk.injEq] at e
      omega
    · unfold withZero at hz
      simp only [if_neg hv] at hz
      exact absurd (hr _ ((hm _).2 hz)) (by simp [zeroRead])

theorem withZero_head {l : List Op} {o : Op} (h : (withZero l).head? = some o) : o.virt = 0 := by
  cases l with
  | nil => exact absurd h (by simp [withZero])
  | cons a t =>
    unfold withZero at h
    by_cases hv : a.virt ≠ 0
    · simp only [if_pos hv, List.head?_cons, Option.some.injEq] at h; rw [← h]; rfl
    · simp only [if_neg hv, List.head?_cons, Option.some.injEq] at h; rw [← h]; omega

theorem withZero_filter {l : List Op} : (withZero l).filter (·.filter) = l.filter (·.filter) := by
  cases l with
  | nil => rfl
  | cons a t =>
    unfold withZero
    by_cases hv : a.virt ≠ 0
    · simp only [if_pos hv]; rw [List.filter_cons_of_neg (by simp [zeroRead])]
    · simp only [if_neg hv]

theorem withZero_length (l : List Op) : l.length ≤ (withZero l).length ∧ (withZero l).length ≤ l.length + 1 := by
  cases l with
  | nil => exact ⟨le_refl _, by simp [withZero]⟩
  | cons a t =>
    unfold withZero
    by_cases hv : a.virt ≠ 0
    · simp only [if_pos hv, List.length_cons]; omega
    · simp only [if_neg hv, List.length_cons]; omega

theorem weave_all {S : List Op} {m : ℕ} (hm : 2 ≤ S.length → 1 ≤ m) (h : S.IsChain (Near m)) : ∃ W, Woven m S W := by
  match S, hm, h with
  | [], _, _ => exact ⟨[], by simp [fillAll], List.IsChain.nil, rfl, rfl⟩
  | [a], _, _ => exact ⟨[a], by simp [fillAll], List.isChain_singleton _, rfl, rfl⟩
  | a :: b :: t, hm, h => exact weave (hm (by simp)) _ h

theorem fillAll_short {S : List Op} {m : ℕ} (h : S.length < 2) : fillAll m S = [] := by
  match S, h with
  | [], _ => rfl
  | [a], _ => rfl

theorem fillAll_count {S : List Op} {m B : ℕ} (hm : S.length ≤ m + 1) (hB : ∀ o ∈ S, o.virt ≤ B ∧ o.ts ≤ B) : (fillAll m S).length ≤ B := by
  rcases Nat.lt_or_ge S.length 2 with h | h
  · rw [fillAll_short h]; exact Nat.zero_le _
  · have h1 := fillAll_length (m := m) S hB
    have h2 : (S.length - 1) * B ≤ m * B := Nat.mul_le_mul_right _ (by omega)
    have h3 : (fillAll m S).length * m ≤ B * m := by rw [Nat.mul_comm B m]; omega
    exact Nat.le_of_mul_le_mul_right h3 (by omega)

/-- The generation of the rows' operations succeeds, with the properties of `Final`. -/
theorem final_exists (h : History init before ops) (hs : Sized before ops) : ∃ m L, finalOps (allOps ops before) = some L ∧ Final (allOps ops before) m L := by
  have hne := allOps_ne h
  have hsl : (sorted (allOps ops before)).length = (allOps ops before).length := (sorted_perm _).length_eq
  set S := withZero (sorted (allOps ops before)) with hS
  set m := Logic.nextPow S.length - 1 with hm
  set N := (allOps ops before).length with hN
  have hpos : 0 < N := List.length_pos_of_ne_nil hne
  obtain ⟨hz1, hz2⟩ := withZero_length (sorted (allOps ops before))
  rw [hsl] at hz1 hz2
  rw [← hS] at hz1 hz2
  have hpow := nextPow_ge S.length
  have hpowle := nextPow_le (k := S.length) (by omega)
  have hcount := hs.count
  have hmem : ∀ o ∈ S, o ∈ allOps ops before ∨ o = zeroRead := fun o ho => by
    rcases withZero_mem ho with h1 | h1
    · exact .inl ((sorted_perm _).mem_iff.1 h1)
    · exact .inr h1
  have hallS : ∀ r ∈ allOps ops before, r ∈ S := fun r hr => withZero_sub ((sorted_perm _).mem_iff.2 hr)
  have hSb : ∀ o ∈ S, o.virt < 2 ^ 32 ∧ o.ts < 2 ^ 35 ∧ o.value < 2 ^ 256 := by
    intro o ho
    rcases hmem o ho with h1 | h1
    · obtain ⟨-, -, h2⟩ := hs.op o h1; exact h2
    · rw [h1]; exact ⟨by decide, by decide, by decide⟩
  have hSc : ∀ o ∈ S, o.ctx < N ∧ o.seg < N := by
    intro o ho
    rcases hmem o ho with h1 | h1
    · obtain ⟨h2, h3, -⟩ := hs.op o h1; exact ⟨h2, h3⟩
    · rw [h1]; exact ⟨hpos, hpos⟩
  have hnear : S.IsChain (Near m) := withZero_chain h (fun o ho => by obtain ⟨h1, h2, -⟩ := hs.op o ho; rw [← hN] at h1 h2; omega)
  have hm2 : 2 ≤ S.length → 1 ≤ m := fun h2 => by omega
  obtain ⟨W, hperm, hchain, hhead, hlast⟩ := weave_all hm2 hnear
  have hWf : sorted (fillGaps (sorted (allOps ops before))) = W := sorted_eq hchain hperm
  have hfill : (fillAll m S).length ≤ 2 ^ 35 := fillAll_count (by omega) (fun o ho => by obtain ⟨h1, h2, -⟩ := hSb o ho; omega)
  have hWlen : W.length = S.length + (fillAll m S).length := by rw [hperm.length_eq, List.length_append]
  -- the last operation
  obtain ⟨z, hz⟩ : ∃ z, S.getLast? = some z := by
    rw [← Option.isSome_iff_exists, List.getLast?_isSome]; intro e; rw [e] at hz1; simp at hz1; omega
  have hzS : z ∈ S := List.mem_of_getLast? hz
  have hWlast : W.getLast? = some z := by rw [hlast, hz]
  set k := Logic.nextPow (W.length + 1) - W.length with hk
  have hkp := nextPow_ge (W.length + 1)
  have hkle := nextPow_le (k := W.length + 1) (by omega)
  have hkm := nextPow_mono (show S.length ≤ W.length + 1 by omega)
  have hpad : (W ++ List.replicate k z.pad).IsChain (Good m) := by
    obtain ⟨k', hk'⟩ : ∃ k', k = k' + 1 := ⟨k - 1, by omega⟩
    have hrep : ∀ j, (List.replicate j z.pad).IsChain (Good m) := by
      intro j
      refine List.isChain_replicate_of_rel _ ?_
      exact ⟨by rw [Op.le_iff]; omega, fun e => absurd rfl e, fun _ e => absurd rfl e, fun _ _ e => absurd rfl e, fun _ _ _ => by omega, fun _ _ => rfl,
        fun e => absurd rfl e, fun _ _ => rfl⟩
    refine List.isChain_append.2 ⟨hchain, hrep k, ?_⟩
    intro x hx y hy
    rw [hWlast] at hx
    simp only [Option.mem_def, Option.some.injEq] at hx
    subst hx
    rw [hk', List.replicate_succ, List.head?_cons] at hy
    simp only [Option.mem_def, Option.some.injEq] at hy
    subst hy
    have hne : z.addr ≠ z.pad.addr := by
      intro e; unfold Op.addr Op.pad at e; simp only [Prod.mk.injEq] at e; omega
    refine ⟨?_, fun e => absurd rfl e, fun _ e => absurd rfl e, fun _ _ _ => ?_, fun _ _ e => ?_, fun e => absurd e hne, fun _ _ _ => rfl, fun e => absurd e hne⟩
    · rw [Op.le_iff]; exact .inr ⟨rfl, .inr ⟨rfl, .inl (Nat.lt_succ_self _)⟩⟩
    · show z.virt + 1 - z.virt - 1 ≤ m; omega
    · have : z.virt = z.virt + 1 := e; omega
  have hL : (W ++ List.replicate k z.pad).length = Logic.nextPow (W.length + 1) := by
    rw [List.length_append, List.length_replicate]; omega
  refine ⟨m, W ++ List.replicate k z.pad, ?_, ?_⟩
  · unfold finalOps
    rw [if_neg hne, hWf]
    unfold padOps
    rw [hWlast]
    simp only [Option.map_some, Option.some.injEq]
    exact sorted_of_pairwise (chain_le hpad)
  · have hWmem : ∀ o ∈ W, o ∈ S ∨ o ∈ fillAll m S := fun o ho => List.mem_append.1 (hperm.mem_iff.1 ho)
    have hd : ∀ d ∈ fillAll m S, d.filter = false ∧ d.read = true ∧ (∃ b ∈ S, d.ctx = b.ctx ∧ d.seg = b.seg) ∧ d.virt < 2 ^ 32 ∧ 1 ≤ d.ts ∧
        d.ts < 2 * 2 ^ 35 + 2 ^ 32 ∧ d.value < 2 ^ 256 := by
      rcases Nat.lt_or_ge S.length 2 with h2 | h2
      · rw [fillAll_short h2]; simp
      · exact fillAll_bound (hm2 h2) S hnear hSb
    refine ⟨hpad, by omega, by omega, ?_, ?_, ?_, ?_, ?_, ?_⟩
    · intro o ho
      rw [List.head?_append, hhead] at ho
      refine withZero_head (o := o) (l := sorted (allOps ops before)) ?_
      rw [← hS]
      cases hh : S.head? with
      | none => rw [List.head?_eq_none_iff] at hh; rw [hh] at hz; cases hz
      | some x => rw [hh] at ho; exact ho
    · intro o ho
      have hk1 : k ≠ 0 := by omega
      rw [List.getLast?_append_of_ne_nil _ (by simp [hk1])] at ho
      have := List.eq_of_mem_replicate (List.mem_of_getLast? ho)
      rw [this]; exact ⟨rfl, rfl⟩
    · have he1 : (List.replicate k z.pad).filter (·.filter) = [] := List.filter_eq_nil_iff.2 (fun o ho => by
        rw [List.eq_of_mem_replicate ho]; simp [Op.pad])
      have he2 : (fillAll m S).filter (·.filter) = [] := List.filter_eq_nil_iff.2 (fun o ho => by rw [(hd o ho).1]; simp)
      rw [List.filter_append, he1, List.append_nil]
      refine (hperm.filter _).trans ?_
      rw [List.filter_append, he2, List.append_nil, hS, withZero_filter]
      refine ((sorted_perm _).filter _).trans ?_
      rw [List.filter_eq_self.2 (fun o ho => h.real' o ho)]
    · intro o ho hf
      rcases List.mem_append.1 ho with ho | ho
      · rcases hWmem o ho with h1 | h1
        · rcases hmem o h1 with h2 | h2
          · rw [h.real' o h2] at hf; cases hf
          · rw [h2]; exact ⟨rfl, le_refl _⟩
        · obtain ⟨-, h2, -, -, h3, -⟩ := hd o h1; exact ⟨h2, h3⟩
      · rw [List.eq_of_mem_replicate ho]; exact ⟨rfl, Nat.le_add_left _ _⟩
    · intro d hdm hf
      rcases List.mem_append.1 hdm with hdm | hdm
      · rcases hWmem d hdm with h1 | h1
        · rcases hmem d h1 with h2 | h2
          · rw [h.real' d h2] at hf; cases hf
          · left
            subst h2
            exact withZero_alone h h1
        · have h2 : 2 ≤ S.length := by
            by_contra hc
            rw [fillAll_short (by omega)] at h1
            exact absurd h1 (by simp)
          rcases (fillAll_place (hm2 h2) S hnear d h1).2 with h3 | ⟨y, hy, hy'⟩
          · exact .inl (fun r hr => h3 r (hallS r hr))
          · exact .inr ⟨y, List.mem_append_left _ (hperm.mem_iff.2 (List.mem_append_left _ hy)), hy'⟩
      · left
        intro r hr e
        rw [List.eq_of_mem_replicate hdm] at e
        have hrW : r ∈ W := hperm.mem_iff.2 (List.mem_append_left _ (hallS r hr))
        have hrz : Op.le r z = true := by
          obtain ⟨W', hW'⟩ := List.getLast?_eq_some_iff.1 hWlast
          have hple := chain_le hchain
          rw [hW'] at hple hrW
          rcases List.mem_append.1 hrW with hr' | hr'
          · exact (List.pairwise_append.1 hple).2.2 r hr' z (by simp)
          · rw [List.mem_singleton.1 hr', Op.le_iff]; omega
        rw [Op.le_iff] at hrz
        unfold Op.addr Op.pad at e
        simp only [Prod.mk.injEq] at e
        omega
    · intro o ho
      rw [hL]
      rcases List.mem_append.1 ho with ho | ho
      · rcases hWmem o ho with h1 | h1
        · obtain ⟨h2, h3⟩ := hSc o h1
          obtain ⟨h4, h5, h6⟩ := hSb o h1
          exact ⟨by omega, by omega, by omega, by omega, h6⟩
        · obtain ⟨-, -, ⟨b, hb, h2, h3⟩, h4, -, h5, h6⟩ := hd o h1
          obtain ⟨h7, h8⟩ := hSc b hb
          exact ⟨by omega, by omega, by omega, by omega, h6⟩
      · rw [List.eq_of_mem_replicate ho]
        obtain ⟨h2, h3⟩ := hSc z hzS
        obtain ⟨h4, h5, h6⟩ := hSb z hzS
        refine ⟨show z.ctx < _ by omega, show z.seg < _ by omega, show z.virt + 1 ≤ _ by omega, show z.ts + 1 < _ by omega, show 0 < 2 ^ 256 by decide⟩

end

end Verif.Stark.Memory
