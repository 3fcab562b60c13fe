/-!
# Retrying requests (`zero/src/rpc/retry.rs`) (C32)

A request is a function from the number of the attempt to its outcome. The back-off is not modelled.
-/
namespace Verif.Zero

/-! ## Model -/

/-- `RetryPolicy`. `zero/src/rpc/retry.rs:23-27`. -/
structure RetryPolicy where
  retries : Nat
  maxRetries : Nat
deriving DecidableEq

/-- `RetryPolicy::new`. `zero/src/rpc/retry.rs:40-46`. -/
def RetryPolicy.new (maxRetries : Nat) : RetryPolicy := ⟨0, maxRetries⟩

/-- `Policy::retry`. `zero/src/rpc/retry.rs:56-71`. -/
def RetryPolicy.retry {α ε : Type} (p : RetryPolicy) (result : Except ε α) : Option RetryPolicy :=
  match result with
  | .error _ => if p.retries < p.maxRetries then some { p with retries := p.retries + 1 } else none
  | .ok _ => none

/-- The `while let` loop of `RetryService::call`: the result and the number of calls made so far.
`zero/src/rpc/retry.rs:129-134`. The fuel bounds the number of retries; see `C32_retry`. -/
def retryLoop {α ε : Type} (call : Nat → Except ε α) : Nat → RetryPolicy → Except ε α → Nat → Option (Except ε α × Nat)
  | 0, _, _, _ => none
  | fuel + 1, p, res, made =>
    match p.retry res with
    | none => some (res, made)
    | some p => retryLoop call fuel p (call made) (made + 1)

/-- `RetryService::call`: the result and the number of calls of the inner service. `zero/src/rpc/retry.rs:124-139`. -/
def retryCall {α ε : Type} (call : Nat → Except ε α) (policy : RetryPolicy) (fuel : Nat) : Option (Except ε α × Nat) :=
  retryLoop call fuel policy (call 0) 1

/-! ## Proofs -/

theorem retryLoop_spec {α ε : Type} (call : Nat → Except ε α) (fuel : Nat) (p : RetryPolicy) (made : Nat)
    (hf : p.maxRetries - p.retries < fuel) (hr : p.retries ≤ p.maxRetries) :
    ∃ k, retryLoop call fuel p (call made) (made + 1) = some (call (made + k), made + k + 1) ∧ k ≤ p.maxRetries - p.retries ∧
      (∀ j, j < k → ∃ e, call (made + j) = .error e) ∧
      ((∃ v, call (made + k) = .ok v) ∨ k = p.maxRetries - p.retries) := by
  induction fuel generalizing p made with
  | zero => omega
  | succ fuel ih =>
    rw [retryLoop]
    cases hc : call made with
    | ok v => exact ⟨0, by simp [RetryPolicy.retry, hc], by omega, by omega, Or.inl ⟨v, by simp [hc]⟩⟩
    | error e =>
      by_cases hlt : p.retries < p.maxRetries
      · obtain ⟨k, h1, h2, h3, h4⟩ := ih { p with retries := p.retries + 1 } (made + 1) (by simp; omega) (by simp; omega)
        refine ⟨k + 1, ?_, by simp at h2; omega, ?_, ?_⟩
        · simp only [RetryPolicy.retry, hlt, if_true]
          rw [h1, show made + 1 + k = made + (k + 1) by omega]
        · intro j hj
          cases j with
          | zero => exact ⟨e, hc⟩
          | succ j =>
            obtain ⟨e', he⟩ := h3 j (by omega)
            exact ⟨e', by rw [← he, show made + (j + 1) = made + 1 + j by omega]⟩
        · rw [show made + (k + 1) = made + 1 + k by omega]
          rcases h4 with h4 | h4
          · exact Or.inl h4
          · right; simp at h4; omega
      · exact ⟨0, by simp [RetryPolicy.retry, hlt, hc], by omega, by omega, Or.inr (by omega)⟩

/-- **C32**. With `max_retries = n` the request ends (with fuel `n + 1`), after at least one and at most `n + 1` calls;
the result is that of the last call; all calls before it failed; and it succeeded unless all `n + 1` calls were
made. -/
theorem C32_retry {α ε : Type} (call : Nat → Except ε α) (n : Nat) :
    ∃ k, retryCall call (.new n) (n + 1) = some (call k, k + 1) ∧ k + 1 ≤ n + 1 ∧
      (∀ j, j < k → ∃ e, call j = .error e) ∧ ((∃ v, call k = .ok v) ∨ k + 1 = n + 1) := by
  obtain ⟨k, h1, h2, h3, h4⟩ := retryLoop_spec call (n + 1) (.new n) 0 (by simp [RetryPolicy.new]) (by simp [RetryPolicy.new])
  simp only [RetryPolicy.new, Nat.zero_add, Nat.sub_zero] at h1 h2 h3 h4
  refine ⟨k, h1, by omega, h3, ?_⟩
  rcases h4 with h4 | h4
  · exact Or.inl h4
  · right; omega

/-- The first success is returned if it is among the first `n + 1` outcomes. -/
theorem C32_first_success {α ε : Type} (call : Nat → Except ε α) (n k : Nat) (v : α) (hk : k ≤ n)
    (hbefore : ∀ j, j < k → ∃ e, call j = .error e) (hok : call k = .ok v) :
    retryCall call (.new n) (n + 1) = some (.ok v, k + 1) := by
  obtain ⟨k', h1, h2, h3, h4⟩ := C32_retry call n
  have hkk : k' = k := by
    rcases Nat.lt_trichotomy k' k with h | h | h
    · obtain ⟨e, he⟩ := hbefore k' h
      rcases h4 with ⟨w, hw⟩ | h4
      · rw [he] at hw; cases hw
      · omega
    · exact h
    · obtain ⟨e, he⟩ := h3 k h
      rw [hok] at he; cases he
  rw [h1, hkk, hok]

example : retryCall (fun i => if i = 2 then Except.ok 7 else Except.error i) (.new 3) 4 = some (.ok 7, 3) ∧
    retryCall (fun i => if i = 2 then Except.ok 7 else Except.error i) (.new 1) 2 = some (.error 1, 2) := ⟨rfl, rfl⟩

end Verif.Zero
