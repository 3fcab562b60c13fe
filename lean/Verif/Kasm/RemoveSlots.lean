import Verif.Kasm.Slots

/-! Removing all slots of an account, for every value the prover supplies. -/

namespace Verif.Kasm

variable {P : Prog} {S : List Nat} {ret n : Nat}

/-- Unlinking the node `x` after `p` removes exactly its slot. -/
theorem SlotsAre.unlink {w : World} {l r : List Nat} {f : Nat → Nat → Option Nat} {p x : Nat}
    (hw : Words w) (h : SlotsAre w n (l ++ x :: r) f) (hlast : LastOf slotBase l p) :
    let w2 := (w.set (p + 4) (w.mem (x + 4))).set (x + 4) u256Max
    p ≠ x ∧ SlotsAre w2 n (l ++ r) (upd2 f (w.mem x) (w.mem (x + 1)) none) ∧ Words w2 ∧
      Keeps w w2 SlotCell ∧ (∀ q ∈ slotBase :: (l ++ r), w2.mem q = w.mem q) := by
  intro w2
  obtain ⟨hl, hn, hb, hlt, hc⟩ := h
  have hr := hl.room
  have hmem : p ∈ slotBase :: (l ++ x :: r) := by
    have := hlast.mem
    rcases List.mem_cons.1 this with h | h <;> simp [h]
  have hx : x ∈ l ++ x :: r := by simp
  have hxe : w.mem (p + 4) = x := hl.chain.next hlast
  obtain ⟨hpx, -⟩ := hl.split_next hmem hxe hx
  have hxm' := List.mem_cons_of_mem slotBase hx
  have hpb := hl.ptr_bound hmem
  have hxb := hl.ptr_bound hxm'
  have hne : p + 4 ≠ x + 4 := by omega
  have hold : ∀ b, b ≠ p + 4 → b ≠ x + 4 → w2.mem b = w.mem b := by
    intro b hb1 hb2
    simp only [w2]
    rw [set_ne hb2, set_ne hb1]
  have hold' : ∀ q ∈ slotBase :: (l ++ x :: r), ∀ k, k ≤ 3 → w2.mem (q + k) = w.mem (q + k) := by
    intro q hq k hk
    refine hold _ (fun hE => ?_) fun hE => ?_
    · have := hl.mem_inj hq hmem (by omega) (by omega) hE; omega
    · have := hl.mem_inj hq hxm' (by omega) (by omega) hE; omega
  have hkey : ∀ q ∈ slotBase :: (l ++ x :: r), slotKey w2.mem q = slotKey w.mem q := by
    intro q hq
    have h0 := hold' q hq 0 (by omega)
    have h1 := hold' q hq 1 (by omega)
    simp only [Nat.add_zero] at h0
    simp only [slotKey, h0, h1]
  have hsub : ∀ q ∈ l ++ r, q ∈ l ++ x :: r := by
    intro q hq; rcases List.mem_append.1 hq with hq | hq <;> simp [hq]
  refine ⟨hpx, ⟨?_, ?_, ?_, ?_, ?_⟩, ?_, ?_, ?_⟩
  · refine hl.remove hlast ?_ ?_ ?_ ?_
    · simp only [w2]; rw [set_ne hne, set_same]
    · simp only [w2]; rw [set_same]
    · intro j hj hjp hjx
      exact hold _ (by omega) (by omega)
    · intro q hq; exact hkey q (List.mem_cons_of_mem _ (hsub q hq))
  · rw [hold _ (by simp only [slotBase, slotNext] at *; omega) (by simp only [slotBase, slotNext] at *; omega)]; exact hn
  · rw [show slotBase = slotBase + 0 from rfl, hold' slotBase (by simp) 0 (by omega)]; exact hb
  · intro q hq
    rw [show q = q + 0 from rfl, hold' q (List.mem_cons_of_mem _ (hsub q hq)) 0 (by omega)]; exact hlt q (hsub q hq)
  · rw [← upd_key (hw _)]
    refine hc.remove ?_ ?_ ?_
    · intro q hq hE
      have := hl.key_inj (hsub q hq) hx hE
      subst this
      have hnd := hl.nodup
      have hnd := (List.nodup_cons.1 hnd).2
      rw [List.nodup_append] at hnd
      rcases List.mem_append.1 hq with hq | hq
      · exact hnd.2.2 q hq q (by simp) rfl
      · exact (List.nodup_cons.1 hnd.2.1).1 hq
    · intro q hq; exact hkey q (List.mem_cons_of_mem _ (hsub q hq))
    · intro q hq; exact hold' q (List.mem_cons_of_mem _ (hsub q hq)) 2 (by omega)
  · exact (hw.set (hw _)).set (by simp only [u256Max]; omega)
  · refine (Keeps.set ?_).trans (Keeps.set ?_) <;>
    · refine .inr ?_; simp only [slotBase] at *; omega
  · intro q hq
    refine hold' q ?_ 0 (by omega)
    rcases List.mem_cons.1 hq with rfl | hq
    · simp
    · exact List.mem_cons_of_mem _ (hsub q hq)

/-- One turn of the loop. -/
theorem run_remove_slots_turn (hP : P.Has linkedListCode) {a p x : Nat} {w : World}
    (hp : p + 4 < slotBase + 2 ^ 32) (hx : w.mem (p + 4) = x) (hxb : x + 4 < slotBase + 2 ^ 32) :
    Reaches P (exec P b_remove_all_slots_loop (p :: p :: a :: ret :: S) w)
      (if a = w.mem x then exec P b_remove_all_slots_loop (p :: p :: a :: ret :: S)
        ((w.set (p + 4) (w.mem (x + 4))).set (x + 4) u256Max) else .goto ret S w) := by
  generalize ht : exec P b_remove_all_slots_loop (p :: p :: a :: ret :: S)
        ((w.set (p + 4) (w.mem (x + 4))).set (x + 4) u256Max) = t
  kexec [b_remove_all_slots_loop, m_add_const]
  rw [wadd_small (by simp only [slotBase] at *; omega), exec_mload_at (by simp only [slotBase] at *; omega),
    Nat.add_comm 4, hx]
  kexec [m_eq_const]
  rw [if_pos (by simp only [slotBase] at *; omega)]
  rw [wadd_small (by simp only [slotBase] at *; omega), exec_mload_at (by simp only [slotBase] at *; omega)]
  kexec []
  rw [exec_mload_at (by simp only [slotBase] at *; omega)]
  kexec []
  by_cases hE : a = w.mem x
  · rw [if_pos hE, if_pos hE]
    rw [exec_mstore_at (by simp only [slotBase] at *; omega)]
    kexec [m_mstore_u256_max]
    rw [wadd_small (by simp only [slotBase] at *; omega), exec_mstore_at (by simp only [slotBase] at *; omega)]
    kexec []
    enter hP in linkedListCode
    rw [Nat.add_comm 4, ← ht]
    exact .refl _
  · rw [if_neg hE, if_neg hE]
    enter hP in linkedListCode
    kexec [b_remove_all_slots_pop_and_end, b_remove_all_slots_end, m_pop4, rep]
    exact .refl _

theorem dropWhile_congr {p q : Nat → Bool} : ∀ {l : List Nat}, (∀ x ∈ l, p x = q x) →
    l.dropWhile p = l.dropWhile q
  | [], _ => rfl
  | x :: l, h => by
    simp only [List.dropWhile_cons, h x (by simp),
      dropWhile_congr (l := l) fun y hy => h y (List.mem_cons_of_mem _ hy)]

/-- In a list sorted by keys whose addresses are at least `a`, the nodes after those of `a` have
other addresses. -/
theorem dropWhile_ne {mem : Nat → Nat} {a : Nat} (hm : ∀ b, mem b < 2 ^ 256) :
    ∀ {r : List Nat}, (r.map (slotKey mem)).Pairwise (· < ·) → (∀ q ∈ r.head?, a ≤ mem q) →
    ∀ q ∈ r.dropWhile (fun q => decide (mem q = a)), mem q ≠ a := by
  intro r
  induction r with
  | nil => intro _ _ q hq; simp at hq
  | cons x r ih =>
    intro hs hge q hq
    rw [List.map_cons, List.pairwise_cons] at hs
    have hle : ∀ y ∈ r, mem x ≤ mem y := by
      intro y hy
      have := hs.1 _ (List.mem_map_of_mem hy)
      rw [slotKey, slotKey, key_lt (hm _) (hm _)] at this
      omega
    have hx : a ≤ mem x := hge x (by simp)
    by_cases hE : mem x = a
    · rw [List.dropWhile_cons_of_pos (by simp [hE])] at hq
      refine ih hs.2 (fun y hy => ?_) q hq
      exact Nat.le_trans hx (hle y (List.mem_of_mem_head? hy))
    · rw [List.dropWhile_cons_of_neg (by simp [hE])] at hq
      rcases List.mem_cons.1 hq with rfl | hq
      · exact hE
      · have := hle q hq; omega

/-- The loop: it removes the nodes after `p` as long as they belong to the account. -/
theorem run_remove_slots_loop (hP : P.Has linkedListCode) {a p : Nat} {l : List Nat}
    (ha : a < u256Max) (hlast : LastOf slotBase l p) :
    ∀ (r : List Nat) (w : World) (f : Nat → Nat → Option Nat), Words w → SlotsAre w n (l ++ r) f →
    ∃ w' ps' f', Reaches P (exec P b_remove_all_slots_loop (p :: p :: a :: ret :: S) w)
        (.goto ret S w') ∧
      Keeps w w' SlotCell ∧ Words w' ∧ SlotsAre w' n ps' f' ∧
      ps' = l ++ r.dropWhile (fun q => w.mem q = a) ∧ (∀ q ∈ ps', w'.mem q = w.mem q) ∧
      ∀ b j, f' b j = f b j ∨ (b = a ∧ f' b j = none) := by
  intro r
  induction r with
  | nil =>
    intro w f hw h
    refine ⟨w, l ++ [], f, ?_, ⟨rfl, rfl, fun _ _ => rfl⟩, hw, h, rfl, fun _ _ => rfl, fun _ _ => .inl rfl⟩
    obtain ⟨hl, hn, hb, hlt, hc⟩ := h
    have hr := hl.room
    have hpos := hl.pos
    have hxe : w.mem (p + 4) = slotBase := hl.chain.next hlast
    have hpb := hl.ptr_bound (p := p) (by simpa using hlast.mem)
    have := run_remove_slots_turn (S := S) (ret := ret) hP (a := a) (w := w) (by omega) hxe
      (by simp only [slotBase]; omega)
    rw [if_neg (by omega)] at this
    exact this
  | cons x r ih =>
    intro w f hw h
    obtain ⟨hl, hn, hb, hlt, hc⟩ := id h
    have hr := hl.room
    have hmem : p ∈ slotBase :: (l ++ x :: r) := by
      rcases List.mem_cons.1 hlast.mem with h | h <;> simp [h]
    have hpb := hl.ptr_bound hmem
    have hxb := hl.ptr_bound (p := x) (by simp)
    have hxe : w.mem (p + 4) = x := hl.chain.next hlast
    have hturn := run_remove_slots_turn (S := S) (ret := ret) hP (a := a) (w := w) (by omega) hxe (by omega)
    by_cases hE : a = w.mem x
    · rw [if_pos hE] at hturn
      obtain ⟨hpx, hs, hw2, hk2, hm2⟩ := h.unlink hw hlast
      obtain ⟨w', ps', f', h1, h2, h3, h4, h5, h6, h7⟩ := ih _ _ hw2 hs
      have hd : r.dropWhile (fun q => decide (((w.set (p + 4) (w.mem (x + 4))).set (x + 4) u256Max).mem q = a)) =
          (x :: r).dropWhile (fun q => w.mem q = a) := by
        rw [List.dropWhile_cons_of_pos (by simp [hE])]
        exact dropWhile_congr fun q hq => by rw [hm2 q (by simp [hq])]
      refine ⟨w', ps', f', hturn.trans h1, hk2.trans h2, h3, h4, h5.trans (by rw [hd]), ?_, ?_⟩
      · intro q hq
        rw [h6 q hq]
        refine hm2 q (List.mem_cons_of_mem _ ?_)
        rw [h5] at hq
        rcases List.mem_append.1 hq with hq | hq
        · simp [hq]
        · have := (List.dropWhile_sublist _).subset hq; simp [this]
      · intro b j
        rcases h7 b j with h7 | h7
        · rw [h7]
          simp only [upd2]
          split
          · rename_i hbj; right; exact ⟨hbj.1.trans hE.symm, rfl⟩
          · left; rfl
        · exact .inr h7
    · rw [if_neg hE] at hturn
      refine ⟨w, l ++ x :: r, f, hturn, ⟨rfl, rfl, fun _ _ => rfl⟩, hw, h, ?_, fun _ _ => rfl, fun _ _ => .inl rfl⟩
      rw [List.dropWhile_cons_of_neg]
      simp only [decide_eq_true_eq]; exact fun h => hE h.symm

/-- `remove_all_account_slots`, for every hint of the prover: slots of other accounts stay, and a
slot of the account is removed or stays. -/
theorem run_remove_slots (hP : P.Has linkedListCode) {a : Nat} {w : World} {ps : List Nat}
    {f : Nat → Nat → Option Nat} (hw : Words w) (h : SlotsAre w n ps f)
    (ha : a < u256Max) :
    Returns P False (.goto (P.addr "remove_all_account_slots") (a :: ret :: S) w) ret
      fun s w' => s = S ∧ Keeps w.next w' SlotCell ∧ Words w' ∧
        ∃ ps' f', SlotsAre w' n ps' f' ∧ ∀ b j, f' b j = f b j ∨ (b = a ∧ f' b j = none) := by
  obtain ⟨hl, hn, hb, hlt, hc⟩ := id h
  have hr := hl.room
  renter hP in linkedListCode
  kexec [b_remove_all_account_slots, exec_input']
  rw [valid_slot (w := w.next) hn hr]
  split
  rotate_left
  · exact .of (reach_panic hP) (.panic id)
  rename_i hval
  have hcase := hl.cases hval
  generalize hp : slotBase + (4 + 1) * w.inp 0 = p at *
  kexec []
  rw [exec_mload_at (by simp only [slotBase] at *; omega)]
  kexec []
  split
  rotate_left
  · exact .of (reach_panic hP) (.panic id)
  rcases hcase with hmem | hdead
  · obtain ⟨l, r, rfl, hlast⟩ := exists_split hmem
    obtain ⟨w', ps', f', h1, h2, h3, h4, -, -, h5⟩ := run_remove_slots_loop (S := S) (ret := ret)
      hP ha hlast r w.next f hw h
    exact .of h1 (.ret ⟨rfl, h2, h3, ps', f', h4, h5⟩)
  · kexec [b_remove_all_slots_loop, m_add_const]
    rw [wadd_small (by simp only [slotBase] at *; omega), exec_mload_at (by simp only [slotBase] at *; omega),
      Nat.add_comm 4, next_mem, hdead]
    kexec [m_eq_const]
    rw [if_neg (by simp)]
    renter hP in linkedListCode
    kexec [b_remove_all_slots_end, m_pop4, rep]
    exact .ret ⟨rfl, ⟨rfl, rfl, fun _ _ => rfl⟩, hw, ps, f, h, fun _ _ => .inl rfl⟩

/-- With the last node of a smaller address as hint, all slots of the account are removed. -/
theorem run_remove_slots_honest (hP : P.Has linkedListCode) {a p : Nat} {w : World} {ps : List Nat}
    {f : Nat → Nat → Option Nat} (hw : Words w) (h : SlotsAre w n ps f)
    (ha : a < u256Max) (hi : slotBase + 5 * w.inp 0 = p)
    (hp : p ∈ slotBase :: ps) (hlo : p = slotBase ∨ w.mem p < a)
    (hhi : a ≤ w.mem (w.mem (p + 4))) :
    ∃ w' ps', Reaches P (.goto (P.addr "remove_all_account_slots") (a :: ret :: S) w)
        (.goto ret S w') ∧ Keeps w.next w' SlotCell ∧ Words w' ∧
      SlotsAre w' n ps' fun b j => if b = a then none else f b j := by
  obtain ⟨hl, hn, hb, hlt, hc⟩ := id h
  have hr := hl.room
  have hpb := hl.ptr_bound hp
  obtain ⟨l, r, rfl, hlast⟩ := exists_split hp
  obtain ⟨w', ps', f', h1, h2, h3, h4, h5, h6, h7⟩ := run_remove_slots_loop (S := S) (ret := ret)
    hP ha hlast r w.next f hw h
  refine ⟨w', ps', ?_, h2, h3, ?_⟩
  · enter hP in linkedListCode
    kexec [b_remove_all_account_slots, exec_input']
    rw [valid_slot (w := w.next) hn hr, if_pos (by simp only [slotBase] at *; omega), hi]
    kexec []
    rw [exec_mload_at (by simp only [slotBase] at *; omega)]
    kexec []
    rw [if_pos (by
      rw [next_mem]
      rcases hlo with rfl | hlo
      · rw [hb]; omega
      · omega)]
    exact h1
  · have hne : ∀ q ∈ ps', w'.mem q ≠ a := by
      intro q hq
      rw [h6 q hq]
      rw [h5] at hq
      have hs := hl.sorted
      rw [List.map_append, List.pairwise_append] at hs
      rcases List.mem_append.1 hq with hq | hq
      · rcases l.eq_nil_or_concat with rfl | ⟨l', y, rfl⟩
        · cases hq
        · rw [List.concat_eq_append] at *
          have hyp : y = p := by simpa [LastOf, List.getLast?_cons] using hlast
          subst hyp
          have hyb : y ≠ slotBase := by
            rintro rfl; exact hl.base_notin (by simp)
          have hya : w.mem y < a := by omega
          rcases List.mem_append.1 hq with hq | hq
          · have hs1 := hs.1
            rw [List.map_append, List.pairwise_append] at hs1
            have := hs1.2.2 _ (List.mem_map_of_mem hq) (slotKey w.mem y) (by simp)
            rw [slotKey, slotKey, key_lt (hw _) (hw _)] at this
            show w.mem q ≠ a
            omega
          · simp only [List.mem_singleton] at hq
            subst hq
            show w.mem q ≠ a
            omega
      · refine dropWhile_ne hw hs.2.1 (fun y hy => ?_) q hq
        have hnx : w.mem (p + 4) = r.headD slotBase := hl.chain.next hlast
        rw [List.headD_eq_head?_getD, hy] at hnx
        rw [hnx] at hhi
        exact hhi
    obtain ⟨g1, g2, g3, g4, g5⟩ := h4
    refine ⟨g1, g2, g3, g4, ?_⟩
    have e : (fun K => (fun b j => if b = a then none else f b j) (K / 2 ^ 256) (K % 2 ^ 256)) =
        fun K => f' (K / 2 ^ 256) (K % 2 ^ 256) := by
      funext K
      by_cases hK : K / 2 ^ 256 = a
      · have := g5.get_none (a := K) fun q hq hE => by
          refine hne q hq ?_
          rw [← hK, ← hE, slotKey, div_key (h3 _)]
        simp only [hK, if_pos] at this ⊢
        exact this.symm
      · simp only [if_neg hK]
        rcases h7 (K / 2 ^ 256) (K % 2 ^ 256) with h7 | h7
        · exact h7.symm
        · exact absurd h7.1 hK
    rw [e]; exact g5

end Verif.Kasm
