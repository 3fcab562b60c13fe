import Verif.Kasm.RemoveSlots

/-! Properties C102-C104: the lists of accounts and storage slots the kernel keeps in memory.
The kernel finds its way in these lists with the help of values the prover supplies; a property
has to hold whatever they are. -/

namespace Verif.Kasm

variable {P : Prog} {S : List Nat} {w w' : World} {ret n m : Nat} {ps qs : List Nat}
  {f : Nat → Option Nat} {g : Nat → Nat → Option Nat}

/-! ### The two lists do not overlap -/

theorem AccountsAre.congr (h : AccountsAre w n ps f) (hn : w'.mem accNext = w.mem accNext)
    (hm : ∀ a, accBase ≤ a → a < accBase + 2 ^ 32 → w'.mem a = w.mem a) : AccountsAre w' n ps f := by
  obtain ⟨hl, h1, hb, hlt, hc⟩ := h
  have hr := hl.room
  have hq : ∀ q ∈ ps, ∀ k, k ≤ 3 → w'.mem (q + k) = w.mem (q + k) := by
    intro q hq k hk
    have := hl.ptr_bound (List.mem_cons_of_mem _ hq)
    exact hm _ (by omega) (by omega)
  have hb' := hm accBase (by omega) (by omega)
  refine ⟨hl.congr (fun i hi => hm _ (by omega) (by omega)) fun q h => hq q h 0 (by omega), by rw [hn, h1], by rw [hb', hb],
    fun q h => ?_, hc.congr (fun q h => hq q h 0 (by omega)) fun q h => hq q h 1 (by omega)⟩
  have := hq q h 0 (by omega)
  rw [Nat.add_zero] at this
  rw [this]; exact hlt q h

theorem SlotsAre.congr (h : SlotsAre w n ps g) (hn : w'.mem slotNext = w.mem slotNext)
    (hm : ∀ a, slotBase ≤ a → a < slotBase + 2 ^ 32 → w'.mem a = w.mem a) : SlotsAre w' n ps g := by
  obtain ⟨hl, h1, hb, hlt, hc⟩ := h
  have hr := hl.room
  have hq : ∀ q ∈ ps, ∀ k, k ≤ 4 → w'.mem (q + k) = w.mem (q + k) := by
    intro q hq k hk
    have := hl.ptr_bound (List.mem_cons_of_mem _ hq)
    exact hm _ (by omega) (by omega)
  have hb' := hm slotBase (by omega) (by omega)
  have hk : ∀ q ∈ ps, slotKey w'.mem q = slotKey w.mem q := by
    intro q h
    have h0 := hq q h 0 (by omega)
    rw [Nat.add_zero] at h0
    rw [slotKey, slotKey, h0, hq q h 1 (by omega)]
  refine ⟨hl.congr (fun i hi => hm _ (by omega) (by omega)) hk, by rw [hn, h1], by rw [hb', hb],
    fun q h => ?_, hc.congr hk fun q h => hq q h 2 (by omega)⟩
  have := hq q h 0 (by omega)
  rw [Nat.add_zero] at this
  rw [this]; exact hlt q h

theorem SlotsAre.keeps (h : SlotsAre w n ps g) (hk : Keeps w w' AccCell) : SlotsAre w' n ps g := by
  refine h.congr (hk.2.2 _ ?_) fun a h1 h2 => hk.2.2 _ ?_ <;>
  · rintro (h | h | h | h) <;> simp only [accNext, accBase, slotNext, slotBase] at * <;> omega

theorem AccountsAre.keeps (h : AccountsAre w n ps f) (hk : Keeps w w' SlotCell) :
    AccountsAre w' n ps f := by
  refine h.congr (hk.2.2 _ ?_) fun a h1 h2 => hk.2.2 _ ?_ <;>
  · rintro (h | h) <;> simp only [accNext, accBase, slotNext, slotBase] at * <;> omega

/-! ### Runs that end in a loop -/

theorem Reaches.connected {P : Prog} {a b c : Out} (h : Reaches P a b) (h' : Reaches P a c) :
    Reaches P b c ∨ Reaches P c b := by
  induction h with
  | refl => exact .inl h'
  | step hd hr ih => cases h' with
    | refl => exact .inr (.step hd hr)
    | step _ h'' => exact ih h''

/-- A routine that comes back to a place that jumps to itself comes back in one way only. -/
theorem Returns.only {H : Prop} {o : Out} {s0 : List Nat} {w0 : World} {Q : List Nat → World → Prop}
    (hloop : ∀ s w, exec P (P.code ret) s w = .goto ret s w)
    (h : Returns P H o ret Q) (h0 : Reaches P o (.goto ret s0 w0)) : Q s0 w0 := by
  have spin : ∀ {a b : Out} {s : List Nat} {w : World}, Reaches P a b → a = .goto ret s w →
      b = .goto ret s w := by
    intro a b s w h
    induction h with
    | refl => exact id
    | step hd hr ih =>
      intro he
      cases he
      exact ih (hloop _ _)
  have stop : ∀ {b : Out}, Reaches P .panic b → b = .panic := fun h => by cases h; rfl
  have stop' : ∀ {b : Out}, Reaches P .stuck b → b = .stuck := fun h => by cases h; rfl
  rcases h with ⟨-, h | h⟩ | ⟨s, w, h, hq⟩
  · rcases h0.connected h with h | h
    · have := spin h rfl; cases this
    · have := stop h; cases this
  · rcases h0.connected h with h | h
    · have := spin h rfl; cases this
    · have := stop' h; cases this
  · rcases h0.connected h with h | h
    · have := spin h rfl
      injection this with h1 h2 h3
      subst h2; subst h3; exact hq
    · have := spin h rfl
      injection this with h1 h2 h3
      subst h2; subst h3; exact hq

/-! ### A small memory for examples -/

/-- A kernel with the code of the lists, and a place that jumps to itself. -/
def listProg : Prog := Prog.of (("here", [.push (.lab "here"), JUMP]) :: linkedListCode) (fun _ => 0)

theorem listProg_has : listProg.Has linkedListCode :=
  (Prog.of_has (("here", [.push (.lab "here"), JUMP]) :: linkedListCode) (fun _ => 0)
    (by decide +kernel) (by decide +kernel)).mono fun p hp => List.mem_cons_of_mem _ hp

theorem listProg_here (s : List Nat) (w : World) :
    exec listProg (listProg.code (listProg.addr "here")) s w = .goto (listProg.addr "here") s w := by
  have h := Prog.of_has (("here", [.push (.lab "here"), JUMP]) :: linkedListCode) (fun _ => 0)
    (by decide +kernel) (by decide +kernel) ("here", [.push (.lab "here"), JUMP]) (by simp)
  show exec listProg ((Prog.of _ _).code ((Prog.of _ _).addr "here")) s w = _
  rw [h.1]
  kexec []

/-- The memory of the example: one account, with key 5 and its fields at 1000, and two slots: slot
6 of account 1 holds 7, slot 6 of account 5 holds 8. -/
def listMem (a : Nat) : Nat :=
  if a = accNext then accBase + 8 else if a = slotNext then slotBase + 15 else
  if a = accBase then u256Max else if a = accBase + 3 then accBase + 4 else
  if a = accBase + 4 then 5 else if a = accBase + 5 then 1000 else
  if a = accBase + 7 then accBase else
  if a = slotBase then u256Max else if a = slotBase + 4 then slotBase + 5 else
  if a = slotBase + 5 then 1 else if a = slotBase + 6 then 6 else if a = slotBase + 7 then 7 else
  if a = slotBase + 9 then slotBase + 10 else
  if a = slotBase + 10 then 5 else if a = slotBase + 11 then 6 else if a = slotBase + 12 then 8 else
  if a = slotBase + 14 then slotBase else 0

/-- The example with `h` as every input. -/
def listWorld (h : Nat) : World where
  ctx := 0
  inp := fun _ => h
  mem := listMem

theorem ite_lt' {c : Prop} [Decidable c] {x y z : Nat} (hx : x < z) (hy : y < z) :
    (if c then x else y) < z := by split <;> assumption

theorem listWorld_words (h : Nat) : Words (listWorld h) := by
  intro a
  show listMem a < _
  simp only [listMem]
  repeat' apply ite_lt'
  all_goals decide

/-- The accounts of the example. -/
def exAccounts : Nat → Option Nat := fun a => if a = 5 then some 1000 else none
/-- The slots of the example. -/
def exSlots : Nat → Nat → Option Nat := fun a k =>
  if a = 1 ∧ k = 6 then some 7 else if a = 5 ∧ k = 6 then some 8 else none

theorem listWorld_accounts (h : Nat) : AccountsAre (listWorld h) 2 [accBase + 4] exAccounts := by
  refine ⟨⟨by omega, by omega, by simp only [accBase]; omega, ⟨(by decide : listMem (accBase + 3) = accBase + 4), (by decide : listMem (accBase + 7) = accBase)⟩, ?_, ?_, by simp⟩,
    (by decide : listMem accNext = accBase + 8), (by decide : listMem accBase = u256Max),
    ?_, ?_⟩
  · intro p hp
    simp only [List.mem_singleton] at hp
    exact ⟨1, by omega, by omega, hp⟩
  · intro i h0 h1 hm
    have : i = 1 := by omega
    subst this
    simp at hm
  · intro p hp
    simp only [List.mem_singleton] at hp
    subst hp; exact (by decide : listMem (accBase + 4) < u256Max)
  · intro a v
    simp only [List.mem_singleton, exists_eq_left, exAccounts]
    rw [show (listWorld h).mem (accBase + 4) = 5 from (by decide : listMem (accBase + 4) = 5), show (listWorld h).mem (accBase + 4 + 1) = 1000 from (by decide : listMem (accBase + 5) = 1000)]
    constructor
    · intro hh; split at hh
      · rename_i ha; exact ⟨ha.symm, Option.some.inj hh⟩
      · cases hh
    · rintro ⟨rfl, rfl⟩; rfl

theorem listWorld_slots (h : Nat) :
    SlotsAre (listWorld h) 3 [slotBase + 5, slotBase + 10] exSlots := by
  have k1 : slotKey (listWorld h).mem (slotBase + 5) = 1 * 2 ^ 256 + 6 :=
    (by decide : slotKey listMem (slotBase + 5) = 1 * 2 ^ 256 + 6)
  have k2 : slotKey (listWorld h).mem (slotBase + 10) = 5 * 2 ^ 256 + 6 :=
    (by decide : slotKey listMem (slotBase + 10) = 5 * 2 ^ 256 + 6)
  refine ⟨⟨by omega, by omega, by simp only [slotBase]; omega, ⟨(by decide : listMem (slotBase + 4) = slotBase + 5),
      (by decide : listMem (slotBase + 9) = slotBase + 10), (by decide : listMem (slotBase + 14) = slotBase)⟩, ?_, ?_, ?_⟩,
    (by decide : listMem slotNext = slotBase + 15), (by decide : listMem slotBase = u256Max), ?_, ?_⟩
  · intro p hp
    simp only [List.mem_cons, List.not_mem_nil, or_false] at hp
    rcases hp with rfl | rfl
    · exact ⟨1, by omega, by omega, rfl⟩
    · exact ⟨2, by omega, by omega, rfl⟩
  · intro i h0 h1 hm
    have : i = 1 ∨ i = 2 := by omega
    rcases this with rfl | rfl <;> simp at hm
  · simp only [List.map_cons, List.map_nil, k1, k2]; simp
  · intro p hp
    simp only [List.mem_cons, List.not_mem_nil, or_false] at hp
    rcases hp with rfl | rfl
    · exact (by decide : listMem (slotBase + 5) < u256Max)
    · exact (by decide : listMem (slotBase + 10) < u256Max)
  · intro a v
    simp only [List.mem_cons, List.not_mem_nil, or_false, exSlots]
    have d := Nat.div_add_mod a (2 ^ 256)
    constructor
    · intro hh
      split at hh
      · rename_i ha
        refine ⟨slotBase + 5, .inl rfl, ?_, Option.some.inj hh⟩
        rw [k1, ← d, ha.1, ha.2]
      · split at hh
        · rename_i ha
          refine ⟨slotBase + 10, .inr rfl, ?_, Option.some.inj hh⟩
          rw [k2, ← d, ha.1, ha.2]
        · cases hh
    · rintro ⟨p, rfl | rfl, rfl, rfl⟩
      · rw [k1, div_key (by omega), mod_key (by omega)]; exact congrArg some (by decide : 7 = listMem (slotBase + 7))
      · rw [k2, div_key (by omega), mod_key (by omega)]; exact congrArg some (by decide : 8 = listMem (slotBase + 12))

/-! ### C102: reading -/

/-- C102 in full: whatever the prover supplies, looking up an account gives the pointer to its
fields, or 0 if there is none, and looking up a slot its value, or the default. -/
def C102_statement : Prop :=
  ∀ (P : Prog) (S : List Nat) (w : World) (ret n m : Nat) (ps qs : List Nat)
    (f : Nat → Option Nat) (g : Nat → Nat → Option Nat), P.Has linkedListCode → Words w →
    AccountsAre w n ps f → SlotsAre w m qs g →
    (∀ a, a < u256Max → Returns P (AccHint w ps a) (.goto (P.addr "search_account") (a :: ret :: S) w) ret
      fun s w' => w' = w.next ∧ s = (f a).getD 0 :: S) ∧
    (∀ a k d, a < u256Max → k < 2 ^ 256 →
      Returns P (SlotHint w qs a k) (.goto (P.addr "search_slot") (a :: k :: d :: ret :: S) w) ret
        fun s w' => w' = w.next ∧ s = (g a k).getD d :: S)

/-- It is false: a prover can make every account look missing, and every slot look as if it held
the default value, by naming the start of the list. -/
theorem C102_reads_violated :
    (∀ (P : Prog) (S : List Nat) (w : World) (ret n m : Nat) (ps qs : List Nat)
      (f : Nat → Option Nat) (g : Nat → Nat → Option Nat), P.Has linkedListCode →
      AccountsAre w n ps f → SlotsAre w m qs g →
      (4 * w.inp 0 = accBase → ∀ a,
        Reaches P (.goto (P.addr "search_account") (a :: ret :: S) w) (.goto ret (0 :: S) w.next)) ∧
      (w.inp 0 = 0 → ∀ a k d,
        Reaches P (.goto (P.addr "search_slot") (a :: k :: d :: ret :: S) w) (.goto ret (d :: S) w.next))) ∧
    ¬ C102_statement := by
  refine ⟨fun P S w ret n m ps qs f g hP ha hs =>
    ⟨fun hi a => run_search_account_start hP ha hi, fun hi a k d => run_search_slot_start hP hs hi⟩,
    fun h => ?_⟩
  have h1 := (h listProg [] (listWorld 0) (listProg.addr "here") 2 3 _ _ _ _ listProg_has (listWorld_words 0)
    (listWorld_accounts 0) (listWorld_slots 0)).2 5 6 0 (by simp only [u256Max]; omega) (by omega)
  have h2 := h1.only listProg_here (run_search_slot_start listProg_has (listWorld_slots 0) rfl)
  have := h2.2
  simp [exSlots] at this

/-- What does hold: the outcome is the right one if the hint is, and for every hint it is the
right one, or it says that there is nothing; the latter only if the hint names the start or a
smaller key. -/
theorem C102_reads_partial (hP : P.Has linkedListCode) (hw : Words w) (ha : AccountsAre w n ps f)
    (hs : SlotsAre w m qs g) :
    (∀ a, a < u256Max →
      (AccHint w ps a → Reaches P (.goto (P.addr "search_account") (a :: ret :: S) w)
        (.goto ret ((f a).getD 0 :: S) w.next)) ∧
      Returns P False (.goto (P.addr "search_account") (a :: ret :: S) w) ret fun s w' =>
        w' = w.next ∧ ((s = 0 :: S ∧ (4 * w.inp 0 = accBase ∨ w.mem (4 * w.inp 0) < a)) ∨
          ∃ v, f a = some v ∧ s = v :: S)) ∧
    (∀ a k d, a < u256Max → k < 2 ^ 256 →
      (SlotHint w qs a k → Reaches P (.goto (P.addr "search_slot") (a :: k :: d :: ret :: S) w)
        (.goto ret ((g a k).getD d :: S) w.next)) ∧
      Returns P False (.goto (P.addr "search_slot") (a :: k :: d :: ret :: S) w) ret fun s w' =>
        w' = w.next ∧ ((s = d :: S ∧ (slotBase + 5 * w.inp 0 = slotBase ∨
            slotKey w.mem (slotBase + 5 * w.inp 0) < a * 2 ^ 256 + k)) ∨
          ∃ v, g a k = some v ∧ s = v :: S)) :=
  ⟨fun _ h => ⟨fun hh => run_search_account_honest hP hw ha h rfl hh.1 hh.2.1 hh.2.2,
      run_search_account hP hw ha h⟩,
    fun _ _ _ h hk => ⟨fun hh => run_search_slot_honest hP hw hs h hk rfl hh.1 hh.2.1 hh.2.2,
      run_search_slot hP hw hs h hk⟩⟩

/-- There is always a right hint. -/
theorem exists_accHint (ha : AccountsAre w n ps f) {a : Nat} (h : a < u256Max) :
    ∃ i, AccHint { w with inp := fun _ => i } ps a := by
  obtain ⟨hl, _, hb, -⟩ := ha
  obtain ⟨p, hp, h1, h2⟩ := hl.exists_pred (a := a) (by rw [hb]; exact h)
  obtain ⟨j, _, rfl⟩ := hl.ptr_lt hp
  refine ⟨accBase / 4 + j, ?_⟩
  simp only [AccHint]
  rw [show 4 * (accBase / 4 + j) = accBase + (3 + 1) * j by simp only [accBase]; omega]
  exact ⟨hp, h1, h2⟩

theorem exists_accPred (ha : AccountsAre w n ps f) {a v : Nat} (h : f a = some v) :
    ∃ i, AccPred { w with inp := fun _ => i } ps a := by
  obtain ⟨hl, _, hb, _, hc⟩ := ha
  obtain ⟨x, hx, h1, -⟩ := (hc _ _).1 h
  obtain ⟨p, hp, h2⟩ := hl.exists_before hx
  obtain ⟨j, _, rfl⟩ := hl.ptr_lt hp
  refine ⟨accBase / 4 + j, ?_⟩
  simp only [AccPred]
  rw [show 4 * (accBase / 4 + j) = accBase + (3 + 1) * j by simp only [accBase]; omega]
  exact ⟨hp, by rw [h2, h1]⟩

theorem exists_slotHint (hs : SlotsAre w m qs g) {a k : Nat} (h : a < u256Max) (hk : k < 2 ^ 256) :
    ∃ i, SlotHint { w with inp := fun _ => i } qs a k := by
  obtain ⟨hl, _, hb, -⟩ := hs
  obtain ⟨p, hp, h1, h2⟩ := hl.exists_pred (a := a * 2 ^ 256 + k) (by
    rw [slotKey, hb]; omega)
  obtain ⟨j, _, rfl⟩ := hl.ptr_lt hp
  exact ⟨j, hp, h1, h2⟩

theorem exists_slotPred (hw : Words w) (hs : SlotsAre w m qs g) {a k v : Nat} (hk : k < 2 ^ 256)
    (h : g a k = some v) : ∃ i, SlotPred { w with inp := fun _ => i } qs a k := by
  obtain ⟨hl, _, hb, _, hc⟩ := hs
  have h' : (fun K => g (K / 2 ^ 256) (K % 2 ^ 256)) (a * 2 ^ 256 + k) = some v := by
    simp only [div_key hk, mod_key hk]; exact h
  obtain ⟨x, hx, h1, -⟩ := (hc _ _).1 h'
  obtain ⟨p, hp, h2⟩ := hl.exists_before hx
  obtain ⟨j, _, rfl⟩ := hl.ptr_lt hp
  rw [slotKey, key_eq (hw _) hk] at h1
  exact ⟨j, hp, by simp only [h2]; exact h1⟩

/-- The account of the example is found with the right hint, and not found with a wrong one. -/
example : Reaches listProg (.goto (listProg.addr "search_account") [5, 77] (listWorld (accBase / 4 + 1)))
      (.goto 77 [1000] (listWorld (accBase / 4 + 1)).next) ∧
    Reaches listProg (.goto (listProg.addr "search_account") [5, 77] (listWorld (accBase / 4)))
      (.goto 77 [0] (listWorld (accBase / 4)).next) := by
  refine ⟨?_, run_search_account_start listProg_has (listWorld_accounts _) (by decide)⟩
  have := (C102_reads_partial (S := []) (ret := 77) listProg_has (listWorld_words _) (listWorld_accounts (accBase / 4 + 1))
    (listWorld_slots _)).1 5 (by decide)
  exact this.1 ⟨by simp [listWorld]; decide, by decide, by decide⟩

/-! ### C103: writing and removing -/

/-- C103: whatever the prover supplies, writing an account or a slot that comes back has changed
exactly that entry, and so has removing one, which was there; the other list and all memory
outside the lists and the unused trie data are as before.  With the right hint it does come back. -/
theorem C103_updates (hP : P.Has linkedListCode) (hw : Words w) (ha : AccountsAre w n ps f)
    (hs : SlotsAre w m qs g) :
    (∀ a v, a < u256Max → 4 * (n + 1) ≤ 2 ^ 32 → v + 4 < 2 ^ 32 → w.mem 0x500000002 + 4 ≤ 2 ^ 32 →
      Returns P (AccHint w ps a)
        (.goto (P.addr "insert_account_with_overwrite") (a :: v :: ret :: S) w) ret fun s w' =>
        s = S ∧ Words w' ∧ Keeps w.next w' (AccFrom (w.mem 0x500000002)) ∧ SlotsAre w' m qs g ∧
          ∃ n' ps', n' ≤ n + 1 ∧ AccountsAre w' n' ps' fun b => if b = a then some v else f b) ∧
    (∀ a, a < u256Max →
      Returns P (AccPred w ps a) (.goto (P.addr "remove_account") (a :: ret :: S) w) ret fun s w' =>
        s = S ∧ Words w' ∧ Keeps w.next w' AccCell ∧ SlotsAre w' m qs g ∧ (∃ v, f a = some v) ∧
          ∃ ps', AccountsAre w' n ps' fun b => if b = a then none else f b) ∧
    (∀ a k v, a < u256Max → k < 2 ^ 256 → v < 2 ^ 256 → 5 * (m + 1) ≤ 2 ^ 32 →
      Returns P (SlotHint w qs a k)
        (.goto (P.addr "insert_slot_with_value") (a :: k :: v :: ret :: S) w) ret fun s w' =>
        s = S ∧ Words w' ∧ Keeps w.next w' SlotCell ∧ AccountsAre w' n ps f ∧
          ∃ m' qs', m' ≤ m + 1 ∧ SlotsAre w' m' qs' fun b j => if b = a ∧ j = k then some v else g b j) ∧
    (∀ a k, a < u256Max → k < 2 ^ 256 →
      Returns P (SlotPred w qs a k) (.goto (P.addr "remove_slot") (a :: k :: ret :: S) w) ret fun s w' =>
        s = S ∧ Words w' ∧ Keeps w.next w' SlotCell ∧ AccountsAre w' n ps f ∧ (∃ v, g a k = some v) ∧
          ∃ qs', SlotsAre w' m qs' fun b j => if b = a ∧ j = k then none else g b j) := by
  refine ⟨fun a v h1 h2 h3 h4 => ?_, fun a h1 => ?_, fun a k v h1 h2 h3 h4 => ?_, fun a k h1 h2 => ?_⟩
  · exact (run_insert_account hP hw ha h1 h2 h3 h4).mono id fun s w' ⟨r1, r2, r3, _, n', ps', r4, r5⟩ =>
      ⟨r1, r3, r2, SlotsAre.keeps (w := w.next) hs ⟨r2.1, r2.2.1, fun b hb => r2.2.2 b fun h => hb h.cell⟩, n', ps', r4, r5⟩
  · exact (run_remove_account hP hw ha h1).mono id fun s w' ⟨r1, r2', r3, r4, ps', r5⟩ =>
      have r2 : Keeps w.next w' AccCell := ⟨r2'.1, r2'.2.1, fun b hb => r2'.2.2 b fun h => hb h.cell⟩
      ⟨r1, r3, r2, SlotsAre.keeps (w := w.next) hs r2, r4, ps', r5⟩
  · exact (run_insert_slot hP hw hs h1 h2 h3 h4).mono id fun s w' ⟨r1, r2, r3, n', ps', r4, r5⟩ =>
      ⟨r1, r3, r2, AccountsAre.keeps (w := w.next) ha r2, n', ps', r4, r5⟩
  · exact (run_remove_slot hP hw hs h1 h2).mono id fun s w' ⟨r1, r2, r3, r4, ps', r5⟩ =>
      ⟨r1, r3, r2, AccountsAre.keeps (w := w.next) ha r2, r4, ps', r5⟩

/-- In the example: the new account 9 goes after that of 5; account 5 can be removed; slot 6 of
account 5 can be overwritten. -/
example : ∃ s w', Reaches listProg
      (.goto (listProg.addr "insert_account_with_overwrite") [9, 1004, 77] (listWorld (accBase / 4 + 1)))
      (.goto 77 s w') ∧ s = [] ∧ ∃ n' ps', AccountsAre w' n' ps' fun b =>
        if b = 9 then some 1004 else exAccounts b := by
  have h := (C103_updates (S := []) (ret := 77) listProg_has (listWorld_words _)
    (listWorld_accounts (accBase / 4 + 1)) (listWorld_slots _)).1 9 1004 (by decide) (by decide) (by decide) (by decide)
  obtain ⟨s, w', h1, h2, -, -, -, n', ps', -, h3⟩ := h.sure ⟨by simp [listWorld]; decide, by decide, by decide⟩
  exact ⟨s, w', h1, h2, n', ps', h3⟩

example : ∃ s w', Reaches listProg
      (.goto (listProg.addr "remove_slot") [5, 6, 77] (listWorld 1)) (.goto 77 s w') ∧
    s = [] ∧ ∃ qs', SlotsAre w' 3 qs' fun b j => if b = 5 ∧ j = 6 then none else exSlots b j := by
  have h := (C103_updates (S := []) (ret := 77) listProg_has (listWorld_words _)
    (listWorld_accounts 1) (listWorld_slots _)).2.2.2 5 6 (by decide) (by decide)
  obtain ⟨s, w', h1, h2, -, -, -, -, qs', h3⟩ := h.sure ⟨by simp [listWorld], by decide, by decide⟩
  exact ⟨s, w', h1, h2, qs', h3⟩

/-! ### C104: removing all slots of an account -/

/-- C104 in full: whatever the prover supplies, removing the slots of an account that comes back
has removed all of them and nothing else. -/
def C104_statement : Prop :=
  ∀ (P : Prog) (S : List Nat) (w : World) (ret m a : Nat) (qs : List Nat)
    (g : Nat → Nat → Option Nat), P.Has linkedListCode → Words w → SlotsAre w m qs g → a < u256Max →
    Returns P False (.goto (P.addr "remove_all_account_slots") (a :: ret :: S) w) ret fun s w' =>
      s = S ∧ ∃ qs', SlotsAre w' m qs' fun b j => if b = a then none else g b j

/-- It is false: naming a node that is not the one before those of the account, here the start,
leaves the slots where they are. -/
theorem C104_removal_violated :
    (∃ w', Reaches listProg (.goto (listProg.addr "remove_all_account_slots")
        (5 :: listProg.addr "here" :: []) (listWorld 0)) (.goto (listProg.addr "here") [] w') ∧
      SlotsAre w' 3 [slotBase + 5, slotBase + 10] exSlots) ∧ ¬ C104_statement := by
  have run : Reaches listProg (.goto (listProg.addr "remove_all_account_slots")
        (5 :: listProg.addr "here" :: []) (listWorld 0)) (.goto (listProg.addr "here") [] (listWorld 0).next) := by
    have hs := listWorld_slots 0
    obtain ⟨hl, hn, hb, -⟩ := hs
    enter listProg_has in linkedListCode
    kexec [b_remove_all_account_slots, exec_input']
    rw [valid_slot (w := (listWorld 0).next) hn (by omega), if_pos (by decide)]
    kexec []
    rw [exec_mload_at (by decide)]
    kexec []
    rw [if_pos (by decide)]
    have := run_remove_slots_turn (P := listProg) (S := []) (ret := listProg.addr "here") listProg_has (a := 5)
      (p := slotBase) (x := slotBase + 5) (w := (listWorld 0).next) (by decide) (by decide) (by decide)
    rw [if_neg (by decide)] at this
    exact this
  refine ⟨⟨_, run, listWorld_slots 0⟩, fun h => ?_⟩
  have h1 := (h listProg [] (listWorld 0) (listProg.addr "here") 3 5 _ _ listProg_has (listWorld_words 0)
    (listWorld_slots 0) (by decide)).only listProg_here run
  obtain ⟨-, qs', hl, -, -, -, hc⟩ := h1
  have hch := hl.chain
  have hbn := hl.base_notin
  have e1 : (listWorld 0).next.mem (slotBase + 4) = slotBase + 5 := by decide
  have e2 : (listWorld 0).next.mem (slotBase + 5 + 4) = slotBase + 10 := by decide
  have hm : slotBase + 10 ∈ qs' := by
    match qs', hch with
    | [], hch => exact absurd (e1.symm.trans hch) (by decide)
    | x :: xs, hch =>
      obtain rfl : slotBase + 5 = x := e1.symm.trans hch.1
      match xs, hch.2 with
      | [], hch => exact absurd (e2.symm.trans hch) (by decide)
      | y :: ys, hch =>
        obtain rfl : slotBase + 10 = y := e2.symm.trans hch.1
        simp
  have := hc.get hm
  have k2 : slotKey (listWorld 0).next.mem (slotBase + 10) = 5 * 2 ^ 256 + 6 := by decide
  simp only [k2, div_key (show 6 < 2 ^ 256 by omega), if_pos] at this
  cases this

/-- What does hold: slots of other accounts stay, a slot of the account is removed or stays, the
list of accounts and the rest of the memory are as before; and all slots of the account are
removed, and the routine comes back, if the hint is the node before those of the account. -/
theorem C104_removal_partial (hP : P.Has linkedListCode) (hw : Words w) (ha : AccountsAre w n ps f)
    (hs : SlotsAre w m qs g) {a : Nat} (h : a < u256Max) :
    (Returns P False (.goto (P.addr "remove_all_account_slots") (a :: ret :: S) w) ret fun s w' =>
      s = S ∧ Words w' ∧ Keeps w.next w' SlotCell ∧ AccountsAre w' n ps f ∧
        ∃ qs' g', SlotsAre w' m qs' g' ∧ ∀ b j, g' b j = g b j ∨ (b = a ∧ g' b j = none)) ∧
    (slotBase + 5 * w.inp 0 ∈ slotBase :: qs →
      (slotBase + 5 * w.inp 0 = slotBase ∨ w.mem (slotBase + 5 * w.inp 0) < a) →
      a ≤ w.mem (w.mem (slotBase + 5 * w.inp 0 + 4)) →
      ∃ w' qs', Reaches P (.goto (P.addr "remove_all_account_slots") (a :: ret :: S) w)
          (.goto ret S w') ∧ Words w' ∧ Keeps w.next w' SlotCell ∧ AccountsAre w' n ps f ∧
        SlotsAre w' m qs' fun b j => if b = a then none else g b j) := by
  refine ⟨(run_remove_slots hP hw hs h).mono id fun s w' ⟨r1, r2, r3, r4⟩ =>
      ⟨r1, r3, r2, AccountsAre.keeps (w := w.next) ha r2, r4⟩, fun h1 h2 h3 => ?_⟩
  obtain ⟨w', qs', r1, r2, r3, r4⟩ := run_remove_slots_honest (S := S) (ret := ret) hP hw hs h rfl h1 h2 h3
  exact ⟨w', qs', r1, r3, r2, AccountsAre.keeps (w := w.next) ha r2, r4⟩

/-- With the node of account 1 as hint, the slots of account 5 are removed. -/
example : ∃ w' qs', Reaches listProg
      (.goto (listProg.addr "remove_all_account_slots") [5, 77] (listWorld 1)) (.goto 77 [] w') ∧
    SlotsAre w' 3 qs' fun b j => if b = 5 then none else exSlots b j := by
  obtain ⟨w', qs', h1, -, -, -, h2⟩ := (C104_removal_partial (S := []) (ret := 77) listProg_has (listWorld_words _)
    (listWorld_accounts 1) (listWorld_slots _) (a := 5) (by decide)).2 (by simp [listWorld]) (by decide) (by decide)
  exact ⟨w', qs', h1, h2⟩

end Verif.Kasm
