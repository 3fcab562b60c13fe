import Verif.Kasm.Code.Macros

/-! Rules for running the kernel's code, beyond those of the single items. -/

namespace Verif.Kasm

theorem wgt_ne_zero {a b : Nat} : wgt a b ≠ 0 ↔ b < a := by simp only [wgt]; split <;> omega
theorem wlt_ne_zero {a b : Nat} : wlt a b ≠ 0 ↔ a < b := by simp only [wlt]; split <;> omega
theorem weq_ne_zero {a b : Nat} : weq a b ≠ 0 ↔ a = b := by simp only [weq]; split <;> omega

/-- Enter the label the run has jumped to. -/
macro "enter " h:term " in " c:ident : tactic =>
  `(tactic| refine Reaches.enter $h (by simp only [$c:ident, List.mem_cons, Prod.mk.injEq]; simp only [true_and, true_or, or_true, String.reduceEq, false_and, false_or]; exact Or.inl rfl) ?_)

/-- Run items symbolically. -/
macro "kexec" "[" ls:Lean.Parser.Tactic.simpLemma,* "]" : tactic =>
  `(tactic| simp only [
    exec_push', val_lit, val_lab, exec_pop, exec_un, exec_bin, exec_ter, exec_jump, exec_jumpi,
    exec_getCtx, exec_exit, exec_panic, exec_jumpdest, exec_stk, src_e, src_t,
    exec_dup1, exec_dup2, exec_dup3, exec_dup4, exec_dup5, exec_dup6, exec_dup7, exec_dup8,
    exec_dup9, exec_dup10, exec_dup11, exec_dup12, exec_dup13, exec_dup14, exec_dup15,
    exec_dup16, exec_swap1, exec_swap2, exec_swap3, exec_swap4, exec_swap5, exec_swap6,
    exec_swap7, exec_swap8, exec_swap9, exec_swap10, exec_swap11, exec_swap12, exec_swap13,
    exec_swap14, exec_swap15, exec_swap16, List.cons_append, List.nil_append, List.append_nil,
    List.append_assoc, wlt_eq_zero, wgt_eq_zero, weq_eq_zero, wiszero_eq_zero, wgt_ne_zero,
    wlt_ne_zero, weq_ne_zero, List.map_cons,
    List.map_nil, List.getD_cons_zero, List.getD_cons_succ, List.drop_succ_cons, List.drop_zero,
    List.length_cons, m_jump, m_jumpi, if_true, Nat.le_add_left, Nat.reduceLeDiff,
    Nat.add_le_add_iff_right, Nat.zero_le, $ls,*])

theorem key_ctx {c f : Nat} (hc : c < 2 ^ 32) (hf : f < 2 ^ 64) :
    key (wadd (c * 2 ^ 64) f) = c * 2 ^ 64 + f := by
  simp only [key, wadd]; omega

theorem segOk_ctx {c f : Nat} (hf : f < 39 * 2 ^ 32) :
    SegOk (wadd (c * 2 ^ 64) f) := by
  simp only [SegOk, wadd]; omega

/-- The gas limit of the current context (`constants/context_metadata.rs`, `GasLimit`): offset
12 of segment 6. -/
def World.gasLimit (w : World) : Nat := w.mem (w.ctx * 2 ^ 64 + 0x60000000c)

/-- `%charge_gas`: the gas is added to the gas counter in the top 64 bits of the return
information; beyond the limit of the context the code faults. -/
theorem exec_charge_gas {P : Prog} {c : List I} {s : List Nat} {w : World} {g k : Nat}
    (hc : w.ctx < 2 ^ 32) (hk : k + g * 2 ^ 192 < 2 ^ 256) :
    exec P (m_charge_gas ++ c) (g :: k :: s) w =
      if k / 2 ^ 192 + g ≤ w.gasLimit then exec P c ((k + g * 2 ^ 192) :: s) w
      else .goto (P.addr "fault_exception") ((k + g * 2 ^ 192) :: s) w := by
  have h1 : wadd (wshl 192 g) k = k + g * 2 ^ 192 := by
    have : g * 2 ^ 192 < 2 ^ 256 := by omega
    simp only [wshl, wadd]
    rw [if_neg (by omega), Nat.mod_eq_of_lt this]; omega
  have h2 : wshr 192 (k + g * 2 ^ 192) = k / 2 ^ 192 + g := by
    simp only [wshr]; rw [if_neg (by omega)]; omega
  simp only [m_charge_gas, m_shl_const, m_ctx_gas_limit, m_mload_context_metadata, m_shr_const,
    m_jumpi, List.cons_append, List.nil_append, exec_push', val_lit, exec_bin, exec_getCtx,
    ]
  rw [exec_mload (segOk_ctx (by omega)), key_ctx hc (by omega)]
  simp only [exec_dup2, exec_push', val_lit, exec_bin, exec_jumpi, val_lab, h1, h2, wgt_eq_zero,
    World.gasLimit]
  exact ite_congr rfl (fun _ => rfl) (fun _ => rfl)

/-! ### Memory at addresses of context 0, assertions -/

section
variable {P : Prog} {c : List I} {s : List Nat} {w : World} {a b d : Nat}

theorem exec_mload_at (h : a < 39 * 2 ^ 32) :
    exec P (MLOAD_GENERAL :: c) (a :: s) w = exec P c (w.mem a :: s) w := by
  have hs : SegOk a := by simp only [SegOk]; omega
  have hk : key a = a := by simp only [key]; omega
  rw [exec_mload hs, hk]

theorem exec_mstore_at (h : a < 39 * 2 ^ 32) :
    exec P (MSTORE_GENERAL :: c) (b :: a :: s) w = exec P c s (w.set a b) := by
  have hs : SegOk a := by simp only [SegOk]; omega
  have hk : key a = a := by simp only [key]; omega
  rw [exec_mstore hs, hk]

theorem exec_mload_bad (h : ¬ SegOk a) : exec P (MLOAD_GENERAL :: c) (a :: s) w = .stuck := by
  simp [exec, h]

theorem wadd_small (h : a + b < 2 ^ 256) : wadd a b = a + b := by
  simp only [wadd]; exact Nat.mod_eq_of_lt h

theorem wmul_small (h : a * b < 2 ^ 256) : wmul a b = a * b := by
  simp only [wmul]; exact Nat.mod_eq_of_lt h

theorem wsub_small (h : b ≤ a) (ha : a < 2 ^ 256) : wsub a b = a - b := by
  simp only [wsub]; omega

theorem wsub_eq_zero (ha : a < 2 ^ 256) (hb : b < 2 ^ 256) : wsub a b = 0 ↔ a = b := by
  simp only [wsub]; omega

theorem flag_or {x y : Nat} (hx : x ≤ 1) (hy : y ≤ 1) : wadd x y = 0 ↔ x = 0 ∧ y = 0 := by
  simp only [wadd]; omega

theorem flag_and {x y : Nat} (hx : x ≤ 1) (hy : y ≤ 1) : wmul x y = 0 ↔ x = 0 ∨ y = 0 := by
  simp only [wmul]
  rcases (by omega : x = 0 ∨ x = 1) with rfl | rfl <;>
    rcases (by omega : y = 0 ∨ y = 1) with rfl | rfl <;> simp

theorem weq_le {x y : Nat} : weq x y ≤ 1 := by simp only [weq]; split <;> omega
theorem wgt_le {x y : Nat} : wgt x y ≤ 1 := by simp only [wgt]; split <;> omega
theorem wlt_le {x y : Nat} : wlt x y ≤ 1 := by simp only [wlt]; split <;> omega
theorem wmul_le {x y : Nat} (hx : x ≤ 1) (hy : y ≤ 1) : wmul x y ≤ 1 := by
  simp only [wmul]
  rcases (by omega : x = 0 ∨ x = 1) with rfl | rfl <;>
    rcases (by omega : y = 0 ∨ y = 1) with rfl | rfl <;> simp

@[simp] theorem set_same {v : Nat} : (w.set a v).mem a = v := by simp [World.set]
theorem set_mem {v : Nat} : (w.set a v).mem b = if b = a then v else w.mem b := rfl
theorem set_ne {v : Nat} (h : b ≠ a) : (w.set a v).mem b = w.mem b := by simp [World.set, h]
@[simp] theorem set_ctx {v : Nat} : (w.set a v).ctx = w.ctx := rfl
@[simp] theorem set_inp {v : Nat} : (w.set a v).inp = w.inp := rfl

end

/-- The world after the prover has supplied a value. -/
def World.next (w : World) : World := { w with inp := fun i => w.inp (i + 1) }
@[simp] theorem next_mem {w : World} : w.next.mem = w.mem := rfl
@[simp] theorem next_ctx {w : World} : w.next.ctx = w.ctx := rfl

theorem exec_input' {P : Prog} {c : List I} {s : List Nat} {w : World} {n : String} :
    exec P (INPUT n :: c) s w = exec P c (w.inp 0 :: s) w.next := by
  rw [exec_input]; rfl

/-! ### Runs that depend on the prover -/

/-- The run comes back to `ret` with a stack and a world as described; or it aborts or gets stuck,
so that there is no proof, which does not happen if `H`.  What is at `ret` is open: statements are
for every kernel with the code in question. -/
def Returns (P : Prog) (H : Prop) (o : Out) (ret : Nat) (Q : List Nat → World → Prop) : Prop :=
  (¬ H ∧ (Reaches P o .panic ∨ Reaches P o .stuck)) ∨ ∃ s w, Reaches P o (.goto ret s w) ∧ Q s w

theorem Returns.mono {P : Prog} {H H' : Prop} {o : Out} {ret : Nat} {Q Q' : List Nat → World → Prop}
    (h : Returns P H o ret Q) (hH : H' → H) (hQ : ∀ s w, Q s w → Q' s w) : Returns P H' o ret Q' := by
  rcases h with ⟨h1, h2⟩ | ⟨s, w, h, hq⟩
  · exact .inl ⟨fun h => h1 (hH h), h2⟩
  · exact .inr ⟨s, w, h, hQ s w hq⟩

theorem Returns.of {P : Prog} {H : Prop} {o o' : Out} {ret : Nat} {Q : List Nat → World → Prop}
    (h : Reaches P o o') (h' : Returns P H o' ret Q) : Returns P H o ret Q := by
  rcases h' with ⟨h1, h' | h'⟩ | ⟨s, w, h', hq⟩
  · exact .inl ⟨h1, .inl (h.trans h')⟩
  · exact .inl ⟨h1, .inr (h.trans h')⟩
  · exact .inr ⟨s, w, h.trans h', hq⟩

theorem Returns.enter {P : Prog} {H : Prop} {code : List (String × List I)} (hP : P.Has code) {l : String}
    {c : List I} {s : List Nat} {w : World} {ret : Nat} {Q : List Nat → World → Prop}
    (hm : (l, c) ∈ code) (h : Returns P H (exec P c s w) ret Q) :
    Returns P H (.goto (P.addr l) s w) ret Q :=
  .of (Reaches.enter hP hm (.refl _)) h

theorem Returns.ret {P : Prog} {H : Prop} {ret : Nat} {s : List Nat} {w : World}
    {Q : List Nat → World → Prop} (h : Q s w) : Returns P H (.goto ret s w) ret Q :=
  .inr ⟨s, w, .refl _, h⟩

theorem Returns.panic {P : Prog} {H : Prop} {ret : Nat} {Q : List Nat → World → Prop} (h : ¬ H) :
    Returns P H .panic ret Q := .inl ⟨h, .inl (.refl _)⟩

theorem Returns.stuck {P : Prog} {H : Prop} {ret : Nat} {Q : List Nat → World → Prop} (h : ¬ H) :
    Returns P H .stuck ret Q := .inl ⟨h, .inr (.refl _)⟩

/-- If the run cannot fail it comes back. -/
theorem Returns.sure {P : Prog} {H : Prop} {o : Out} {ret : Nat} {Q : List Nat → World → Prop}
    (h : Returns P H o ret Q) (hH : H) : ∃ s w, Reaches P o (.goto ret s w) ∧ Q s w := by
  rcases h with h | h
  · exact absurd hH h.1
  · exact h

/-- Enter the label the run has jumped to. -/
macro "renter " h:term " in " c:ident : tactic =>
  `(tactic| refine Returns.enter $h (by simp only [$c:ident, List.mem_cons, Prod.mk.injEq]; simp only [true_and, true_or, or_true, String.reduceEq, false_and, false_or]; exact Or.inl rfl) ?_)

end Verif.Kasm
