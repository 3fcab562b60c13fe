import Verif.Kernel.Ast

/-!
# Replacing one window of a program
-/
namespace Verif.Kernel

variable {W : Type} {ext : Item → W → Stack → Step W}

/-! ## Executions -/

theorem run_mono {code : List Item} : ∀ {n : Nat} {rest : List Item} {s : Stack} {w : W} {x}, run ext code n rest s w = some x →
    ∀ k, run ext code (n + k) rest s w = some x := by
  intro n
  induction n with
  | zero => intro rest s w x h; simp [run] at h
  | succ n ih =>
    intro rest s w x h k
    rw [Nat.add_right_comm]
    cases rest with
    | nil => simpa [run] using h
    | cons i rest =>
      simp only [run] at h ⊢
      cases he : exec ext i s w with
      | fault => rw [he] at h; exact h
      | stop s w => rw [he] at h; exact h
      | next s w => rw [he] at h; exact ih h k
      | jump to s w =>
        rw [he] at h
        cases to with
        | word v => exact h
        | addr l =>
          dsimp only at h ⊢
          cases ht : target code l with
          | none => rw [ht] at h; exact h
          | some r => rw [ht] at h; exact ih h k

theorem run_unique {code rest : List Item} {n m : Nat} {s : Stack} {w : W} {x y} (h : run ext code n rest s w = some x)
    (h' : run ext code m rest s w = some y) : x = y := by
  have a := run_mono h m
  have b := run_mono h' n
  rw [Nat.add_comm, a] at b
  exact Option.some.inj b

/-! ## Labels -/

theorem after_append (d : Item) (A B : List Item) :
    after d (A ++ B) = match after d A with
      | some Q => some (Q ++ B)
      | none => after d B := by
  induction A with
  | nil => rfl
  | cons i A ih =>
    simp only [List.cons_append, after]
    split
    · rfl
    · exact ih

/-- The rest of an execution of the old program and that of an execution of the new one. -/
def Sim (v r S : List Item) (a b : List Item) : Prop :=
  a = b ∨ ∃ Q, a = Q ++ v ++ S ∧ b = Q ++ r ++ S

theorem after_sim {P v r S : List Item} {d : Item} (h : after d (v ++ S) = after d (r ++ S)) :
    (after d (P ++ v ++ S) = none ∧ after d (P ++ r ++ S) = none) ∨
    ∃ a b, after d (P ++ v ++ S) = some a ∧ after d (P ++ r ++ S) = some b ∧ Sim v r S a b := by
  rw [List.append_assoc, List.append_assoc, after_append d P (v ++ S), after_append d P (r ++ S)]
  cases after d P with
  | some Q => exact .inr ⟨_, _, rfl, rfl, .inr ⟨Q, by simp, by simp⟩⟩
  | none =>
    dsimp only
    rw [h]
    cases after d (r ++ S) with
    | none => exact .inl ⟨rfl, rfl⟩
    | some a => exact .inr ⟨a, a, rfl, rfl, .inl rfl⟩

theorem target_sim {P v r S : List Item} (h : ∀ l, after (.localLabel l) (v ++ S) = after (.localLabel l) (r ++ S) ∧
      after (.globalLabel l) (v ++ S) = after (.globalLabel l) (r ++ S)) (l : String) :
    (target (P ++ v ++ S) l = none ∧ target (P ++ r ++ S) l = none) ∨
    ∃ a b, target (P ++ v ++ S) l = some a ∧ target (P ++ r ++ S) l = some b ∧ Sim v r S a b := by
  unfold target
  rcases after_sim (P := P) (h l).1 with ⟨e, e'⟩ | ⟨a, b, e, e', hs⟩
  · rw [e, e']
    exact after_sim (h l).2
  · rw [e, e']
    exact .inr ⟨a, b, rfl, rfl, hs⟩

/-! ## Replacement -/

/-- What is known about the window `v` and its replacement `r`, both followed by `S`: either the window fails, or both
lead to `S` with the same stack, the window by at least one step. -/
def Local (code code' v r S : List Item) : Prop :=
  ∀ s : Stack,
    (∃ k, ∀ (W : Type) (ext : Item → W → Stack → Step W) (w : W), run ext code k (v ++ S) s w = some none) ∨
    (∃ s' k k', 0 < k ∧ ∀ (W : Type) (ext : Item → W → Stack → Step W) (w : W) n,
      run ext code (n + k) (v ++ S) s w = run ext code n S s' w ∧
      run ext code' (n + k') (r ++ S) s w = run ext code' n S s' w)

section
variable {P v r S : List Item}
  (hl : ∀ l, after (.localLabel l) (v ++ S) = after (.localLabel l) (r ++ S) ∧
      after (.globalLabel l) (v ++ S) = after (.globalLabel l) (r ++ S))
  (hloc : Local (P ++ v ++ S) (P ++ r ++ S) v r S)
include hl hloc

/-- Executions of the old program that end are matched. -/
theorem forward : ∀ (n : Nat) (a b : List Item) (s : Stack) (w : W) (o : Outcome W), Sim v r S a b →
    run ext (P ++ v ++ S) n a s w = some (some o) → ∃ m, run ext (P ++ r ++ S) m b s w = some (some o) := by
  intro n
  induction n using Nat.strongRecOn with
  | _ n ih =>
  -- the first item is the same
  have first : ∀ (i : Item) (a b : List Item) (s : Stack) (w : W) (o : Outcome W), Sim v r S a b →
      run ext (P ++ v ++ S) n (i :: a) s w = some (some o) → ∃ m, run ext (P ++ r ++ S) m (i :: b) s w = some (some o) := by
    intro i a b s w o hs h
    cases n with
    | zero => simp [run] at h
    | succ n =>
      simp only [run] at h
      cases he : exec ext i s w with
      | fault => rw [he] at h; simp at h
      | stop s w =>
        rw [he] at h
        exact ⟨1, by simp only [run, he]; exact h⟩
      | next s w =>
        rw [he] at h
        obtain ⟨m, hm⟩ := ih n (Nat.lt_succ_self n) a b s w o hs h
        exact ⟨m + 1, by simp only [run, he]; exact hm⟩
      | jump to s w =>
        rw [he] at h
        cases to with
        | word x => exact ⟨1, by simp only [run, he]; exact h⟩
        | addr l =>
          dsimp only at h
          rcases target_sim (P := P) hl l with ⟨e, e'⟩ | ⟨a', b', e, e', hs'⟩
          · rw [e] at h
            exact ⟨1, by simp only [run, he, e']; exact h⟩
          · rw [e] at h
            obtain ⟨m, hm⟩ := ih n (Nat.lt_succ_self n) a' b' s w o hs' h
            exact ⟨m + 1, by simp only [run, he, e']; exact hm⟩
  intro a b s w o hs h
  rcases hs with rfl | ⟨Q, rfl, rfl⟩
  · cases a with
    | nil =>
      cases n with
      | zero => simp [run] at h
      | succ n => exact ⟨1, by simpa [run] using h⟩
    | cons i a => exact first i a a s w o (.inl rfl) h
  · cases Q with
    | cons i Q => exact first i _ _ s w o (.inr ⟨Q, rfl, rfl⟩) h
    | nil =>
      rw [List.nil_append] at h ⊢
      rcases hloc s with ⟨k, hk⟩ | ⟨s', k, k', hk, hkk⟩
      · have := run_unique h (hk W ext w); simp at this
      · have hnk : k ≤ n := by
          by_cases c : k ≤ n
          · exact c
          · exfalso
            have h1 := run_mono h (k - n)
            have h2 := (hkk W ext w 0).1
            rw [Nat.zero_add] at h2
            have e : n + (k - n) = k := by omega
            rw [e, h2] at h1
            simp [run] at h1
        obtain ⟨m, rfl⟩ : ∃ m, n = m + k := ⟨n - k, by omega⟩
        rw [(hkk W ext w m).1] at h
        obtain ⟨j, hj⟩ := ih m (by omega) S S s' w o (.inl rfl) h
        exact ⟨j + k', by rw [(hkk W ext w j).2]; exact hj⟩

/-- When the new program comes to an end, so does the old one, in the same way or by failing. -/
theorem backward : ∀ (m : Nat) (a b : List Item) (s : Stack) (w : W) (x), Sim v r S a b →
    run ext (P ++ r ++ S) m b s w = some x →
    ∃ n y, run ext (P ++ v ++ S) n a s w = some y ∧ (y = none ∨ y = x) := by
  intro m
  induction m using Nat.strongRecOn with
  | _ m ih =>
  have first : ∀ (i : Item) (a b : List Item) (s : Stack) (w : W) (x), Sim v r S a b →
      run ext (P ++ r ++ S) m (i :: b) s w = some x →
      ∃ n y, run ext (P ++ v ++ S) n (i :: a) s w = some y ∧ (y = none ∨ y = x) := by
    intro i a b s w x hs h
    cases m with
    | zero => simp [run] at h
    | succ m =>
      simp only [run] at h
      cases he : exec ext i s w with
      | fault => exact ⟨1, none, by simp only [run, he], .inl rfl⟩
      | stop s w =>
        rw [he] at h
        exact ⟨1, x, by simp only [run, he]; exact h, .inr rfl⟩
      | next s w =>
        rw [he] at h
        obtain ⟨n, y, hn, hy⟩ := ih m (Nat.lt_succ_self m) a b s w x hs h
        exact ⟨n + 1, y, by simp only [run, he]; exact hn, hy⟩
      | jump to s w =>
        rw [he] at h
        cases to with
        | word z => exact ⟨1, x, by simp only [run, he]; exact h, .inr rfl⟩
        | addr l =>
          dsimp only at h
          rcases target_sim (P := P) hl l with ⟨e, e'⟩ | ⟨a', b', e, e', hs'⟩
          · rw [e'] at h
            exact ⟨1, x, by simp only [run, he, e]; exact h, .inr rfl⟩
          · rw [e'] at h
            obtain ⟨n, y, hn, hy⟩ := ih m (Nat.lt_succ_self m) a' b' s w x hs' h
            exact ⟨n + 1, y, by simp only [run, he, e]; exact hn, hy⟩
  have same : ∀ (a : List Item) (s : Stack) (w : W) (x), run ext (P ++ r ++ S) m a s w = some x →
      ∃ n y, run ext (P ++ v ++ S) n a s w = some y ∧ (y = none ∨ y = x) := by
    intro a s w x h
    cases a with
    | nil =>
      cases m with
      | zero => simp [run] at h
      | succ m => exact ⟨1, x, by simpa [run] using h, .inr rfl⟩
    | cons i a => exact first i a a s w x (.inl rfl) h
  intro a b s w x hs h
  rcases hs with rfl | ⟨Q, rfl, rfl⟩
  · exact same _ _ _ _ h
  · cases Q with
    | cons i Q => exact first i _ _ s w x (.inr ⟨Q, rfl, rfl⟩) h
    | nil =>
      rw [List.nil_append] at h ⊢
      rcases hloc s with ⟨k, hk⟩ | ⟨s', k, k', hk, hkk⟩
      · exact ⟨k, none, hk W ext w, .inl rfl⟩
      · have h1 := run_mono h k'
        rw [(hkk W ext w m).2] at h1
        obtain ⟨n, y, hn, hy⟩ := same S s' w x h1
        exact ⟨n + k, y, by rw [(hkk W ext w n).1]; exact hn, hy⟩

/-- One replacement preserves the behaviour of the program. -/
theorem preserves_replace : Preserves (P ++ v ++ S) (P ++ r ++ S) := by
  intro W ext from? s w
  have start : (entry (P ++ v ++ S) from? = none ∧ entry (P ++ r ++ S) from? = none) ∨
      ∃ a b, entry (P ++ v ++ S) from? = some a ∧ entry (P ++ r ++ S) from? = some b ∧ Sim v r S a b := by
    cases from? with
    | none => exact .inr ⟨_, _, rfl, rfl, .inr ⟨P, rfl, rfl⟩⟩
    | some l => exact target_sim (P := P) hl l
  refine ⟨?_, ?_⟩
  · rintro o ⟨rest, hr, n, hn⟩
    rcases start with ⟨e, _⟩ | ⟨a, b, e, e', hs⟩
    · rw [e] at hr; simp at hr
    · rw [e] at hr
      obtain rfl := Option.some.inj hr.symm
      exact ⟨b, e', forward hl hloc n rest b s w o hs hn⟩
  · rintro ⟨rest, hr, hn⟩
    rcases start with ⟨e, _⟩ | ⟨a, b, e, e', hs⟩
    · rw [e] at hr; simp at hr
    · rw [e] at hr
      obtain rfl := Option.some.inj hr.symm
      refine ⟨b, e', fun m => ?_⟩
      cases h : run ext (P ++ r ++ S) m b s w with
      | none => rfl
      | some x =>
        obtain ⟨n, y, hy, _⟩ := backward hl hloc m rest b s w x hs h
        rw [hn n] at hy; simp at hy

end

theorem Preserves.refl (c : List Item) : Preserves c c := fun _ _ _ _ _ => ⟨fun _ h => h, fun h => h⟩

theorem Preserves.trans {a b c : List Item} (h : Preserves a b) (h' : Preserves b c) : Preserves a c :=
  fun W ext f s w => ⟨fun o ho => (h' W ext f s w).1 o ((h W ext f s w).1 o ho), fun ho => (h' W ext f s w).2 ((h W ext f s w).2 ho)⟩

/-! ## Windows of operations on the stack -/

/-- An operation that only looks at the stack and goes on. -/
def isPure : Item → Bool
  | .push _ => true
  | .op .jump => false
  | .op .jumpi => false
  | .op (.other _) => false
  | .op _ => true
  | _ => false

/-- Its effect. -/
def pureItem : Item → Stack → Option Stack
  | .push (.literal n), s => some (.word n :: s)
  | .push (.label l), s => some (.addr l :: s)
  | .op o, s => evmOp o s
  | _, _ => none

def pures : List Item → Stack → Option Stack
  | [], s => some s
  | i :: r, s => (pureItem i s).bind (pures r)

theorem exec_pure {i : Item} (h : isPure i = true) (s : Stack) (w : W) :
    exec ext i s w = match pureItem i s with
      | some s' => .next s' w
      | none => .fault := by
  cases i with
  | push t => cases t <;> rfl
  | op o => cases o <;> first | rfl | simp [isPure] at h
  | globalLabel l => simp [isPure] at h
  | localLabel l => simp [isPure] at h
  | proverInput f => simp [isPure] at h
  | bytes b => simp [isPure] at h
  | jumptable b => simp [isPure] at h

theorem run_pures {code S : List Item} : ∀ {v : List Item} (_ : ∀ i ∈ v, isPure i = true) (n : Nat) (s : Stack) (w : W),
    run ext code (n + v.length) (v ++ S) s w = match pures v s with
      | some s' => run ext code n S s' w
      | none => some none := by
  intro v
  induction v with
  | nil => intro _ n s w; rfl
  | cons i v ih =>
    intro h n s w
    rw [List.length_cons, ← Nat.add_assoc, List.cons_append]
    simp only [run, pures]
    rw [exec_pure (h i List.mem_cons_self)]
    cases pureItem i s with
    | none => rfl
    | some s' =>
      dsimp only [Option.bind]
      exact ih (fun j hj => h j (List.mem_cons_of_mem _ hj)) n s' w

theorem after_pures {d : Item} (hd : isPure d = false) {v : List Item} (h : ∀ i ∈ v, isPure i = true) (S : List Item) :
    after d (v ++ S) = after d S := by
  induction v with
  | nil => rfl
  | cons i v ih =>
    have hi := h i List.mem_cons_self
    simp only [List.cons_append, after]
    rw [if_neg (by intro e; rw [e, hd] at hi; simp at hi)]
    exact ih (fun j hj => h j (List.mem_cons_of_mem _ hj))

/-- Replacing stack operations by stack operations that agree on every stack on which the old ones do not fail. -/
theorem preserves_pures {P v r S : List Item} (hv : ∀ i ∈ v, isPure i = true) (hr : ∀ i ∈ r, isPure i = true) (hne : v ≠ [])
    (h : ∀ s s', pures v s = some s' → pures r s = some s') : Preserves (P ++ v ++ S) (P ++ r ++ S) := by
  apply preserves_replace
  · intro l
    rw [after_pures rfl hv, after_pures rfl hr, after_pures rfl hv, after_pures rfl hr]
    exact ⟨rfl, rfl⟩
  · intro s
    cases hs : pures v s with
    | none =>
      refine .inl ⟨0 + v.length, fun W ext w => ?_⟩
      rw [run_pures hv, hs]
    | some s' =>
      refine .inr ⟨s', v.length, r.length, by cases v <;> simp_all, fun W ext w n => ⟨?_, ?_⟩⟩
      · rw [run_pures hv, hs]
      · rw [run_pures hr, h s s' hs]

theorem after_none_of_not_mem {d : Item} : ∀ {c : List Item}, d ∉ c → after d c = none
  | [], _ => rfl
  | i :: c, h => by
    simp only [List.mem_cons, not_or] at h
    simp only [after]
    rw [if_neg (fun e => h.1 e.symm)]
    exact after_none_of_not_mem h.2

theorem mem_declared {l : String} : ∀ {c : List Item}, (.localLabel l ∈ c ∨ .globalLabel l ∈ c) → l ∈ declared c
  | [], h => by simp at h
  | i :: c, h => by
    simp only [List.mem_cons] at h
    have ih := @mem_declared l c
    cases i <;> simp only [declared, List.mem_cons] <;> simp at h <;> grind

theorem declared_append (a b : List Item) : declared (a ++ b) = declared a ++ declared b := by
  induction a with
  | nil => rfl
  | cons i a ih => cases i <;> simp [declared, ih]

/-- Removing a jump to the label that follows. -/
theorem preserves_jump {P S : List Item} {l : String} {d : Item} (hd : d = .localLabel l ∨ d = .globalLabel l)
    (hn : (declared (P ++ [.push (.label l), .op .jump, d] ++ S)).Nodup) :
    Preserves (P ++ [.push (.label l), .op .jump, d] ++ S) (P ++ [d] ++ S) := by
  have ht : target (P ++ [.push (.label l), .op .jump, d] ++ S) l = some S := by
    rw [declared_append, declared_append] at hn
    have hdd : declared [.push (.label l), .op .jump, d] = [l] := by rcases hd with rfl | rfl <;> rfl
    rw [hdd] at hn
    have hP : l ∉ declared P := by
      intro hc
      rw [List.nodup_append, List.nodup_append] at hn
      exact hn.1.2.2 l hc l (by simp) rfl
    have hS : l ∉ declared S := by
      intro hc
      rw [List.nodup_append] at hn
      exact hn.2.2 l (by simp) l hc rfl
    have hPl : after (.localLabel l) P = none := after_none_of_not_mem (fun h => hP (mem_declared (.inl h)))
    have hPg : after (.globalLabel l) P = none := after_none_of_not_mem (fun h => hP (mem_declared (.inr h)))
    have hSl : after (.localLabel l) S = none := after_none_of_not_mem (fun h => hS (mem_declared (.inl h)))
    unfold target
    rw [List.append_assoc, after_append (.localLabel l) P, after_append (.globalLabel l) P, hPl, hPg]
    rcases hd with rfl | rfl
    · simp [after]
    · simp [after, hSl]
  apply preserves_replace
  · intro l'
    rcases hd with rfl | rfl <;> simp [after]
  · intro s
    refine .inr ⟨s, 2, 1, by decide, fun W ext w n => ⟨?_, ?_⟩⟩
    · show run ext _ (n + 2) (.push (.label l) :: .op .jump :: d :: S) s w = _
      simp only [run, exec]
      rw [ht]
    · rcases hd with rfl | rfl <;> rfl

end Verif.Kernel
