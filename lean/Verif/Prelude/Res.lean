import Mathlib.Order.Basic
import Mathlib.Data.Nat.Find
import Mathlib.Tactic.Common

/-!
# Outcomes of a C++ call, and unbounded `while` loops

This file is semantic infrastructure, it does not model a particular piece of odeint.

* `Res W α` is the outcome of a call: normal return, exception, undefined behaviour or divergence.
* `M W α` is a computation that reads and updates a shared world `W`
  (everything the C++ code accesses through references: observer state, step checkers, ...).
* `whileM` is the unbounded C++ `while` loop.
-/

namespace Verif

/-- Exceptions the library throws (`util/odeint_error.hpp`, `std::overflow_error` in
`iterator/impl/adaptive_iterator_impl.hpp`), and exceptions of user code. -/
inductive Err where
  | noProgress
  | stepAdjustment
  | overflow
  | user (code : Nat)
  deriving DecidableEq, Repr

/-- Outcome of a C++ call in a world of type `W`. -/
inductive Res (W α : Type) where
  /-- normal return with value `a`, the world being `w` afterwards -/
  | ok (a : α) (w : W)
  /-- exception `e` propagates, the world being `w` at that moment -/
  | err (e : Err) (w : W)
  /-- undefined behaviour -/
  | ub
  /-- the call does not return -/
  | div

/-- Computations over a shared world. -/
abbrev M (W α : Type) : Type := W → Res W α

namespace M
variable {W α β : Type}

/-- Sequencing: exceptions, undefined behaviour and divergence propagate. -/
def bind (m : M W α) (f : α → M W β) : M W β := fun w =>
  match m w with
  | .ok a w' => f a w'
  | .err e w' => .err e w'
  | .ub => .ub
  | .div => .div

instance : Monad (M W) where
  pure a := fun w => .ok a w
  bind := bind

/-- `throw e` -/
def throw (e : Err) : M W α := fun w => .err e w
/-- undefined behaviour -/
def ub : M W α := fun _ => .ub
/-- read the shared world -/
def get : M W W := fun w => .ok w w
/-- update the shared world -/
def modify (f : W → W) : M W Unit := fun w => .ok () (f w)

theorem pure_apply (a : α) (w : W) : (pure a : M W α) w = .ok a w := rfl

theorem bind_apply (m : M W α) (f : α → M W β) (w : W) :
    (m >>= f) w = match m w with
      | .ok a w' => f a w'
      | .err e w' => .err e w'
      | .ub => .ub
      | .div => .div := rfl

theorem map_apply (f : α → β) (m : M W α) (w : W) :
    (f <$> m) w = match m w with
      | .ok a w' => .ok (f a) w'
      | .err e w' => .err e w'
      | .ub => .ub
      | .div => .div := rfl

theorem bind_ok {m : M W α} {w w' : W} {a : α} (h : m w = .ok a w') (f : α → M W β) :
    (m >>= f) w = f a w' := by rw [bind_apply, h]

theorem bind_err {m : M W α} {w w' : W} {e : Err} (h : m w = .err e w') (f : α → M W β) :
    (m >>= f) w = .err e w' := by rw [bind_apply, h]

theorem bind_ub {m : M W α} {w : W} (h : m w = .ub) (f : α → M W β) :
    (m >>= f) w = .ub := by rw [bind_apply, h]

theorem bind_div {m : M W α} {w : W} (h : m w = .div) (f : α → M W β) :
    (m >>= f) w = .div := by rw [bind_apply, h]

instance : LawfulMonad (M W) := LawfulMonad.mk' (M W)
  (id_map := by
    intro α x; funext w
    show (match x w with | .ok a w' => _ | .err e w' => _ | .ub => _ | .div => _) = _
    cases x w <;> rfl)
  (pure_bind := by intro α β x f; rfl)
  (bind_assoc := by
    intro α β γ x f g; funext w
    simp only [bind_apply]
    cases x w <;> rfl)

end M

/-! ## Postconditions -/

namespace Res
variable {W α β : Type}

/-- `r.Sat Q E D`: a normal return satisfies `Q`, an exception satisfies `E`, undefined behaviour does
not occur, and divergence is possible only if `D` holds. -/
def Sat (r : Res W α) (Q : α → W → Prop) (E : Err → W → Prop) (D : Prop) : Prop :=
  match r with
  | .ok a w => Q a w
  | .err e w => E e w
  | .ub => False
  | .div => D

theorem Sat.mono {r : Res W α} {Q Q' : α → W → Prop} {E E' : Err → W → Prop} {D D' : Prop}
    (h : r.Sat Q E D) (hQ : ∀ a w, Q a w → Q' a w) (hE : ∀ e w, E e w → E' e w) (hD : D → D') :
    r.Sat Q' E' D' := by
  cases r with
  | ok a w => exact hQ _ _ h
  | err e w => exact hE _ _ h
  | ub => exact h
  | div => exact hD h

theorem Sat.ok_iff {a : α} {w : W} {Q : α → W → Prop} {E : Err → W → Prop} {D : Prop} :
    (Res.ok a w).Sat Q E D ↔ Q a w := Iff.rfl

theorem Sat.bind {m : M W α} {f : α → M W β} {w : W} {Q : β → W → Prop} {E : Err → W → Prop}
    {D : Prop} (h : (m w).Sat (fun a w' => (f a w').Sat Q E D) E D) : ((m >>= f) w).Sat Q E D := by
  rw [M.bind_apply]
  cases hm : m w <;> rw [hm] at h <;> exact h

theorem Sat.of_ok {r : Res W α} {Q : α → W → Prop} {E : Err → W → Prop} {D : Prop}
    {a : α} {w : W} (h : r.Sat Q E D) (hr : r = .ok a w) : Q a w := by
  subst hr; exact h

theorem Sat.of_err {r : Res W α} {Q : α → W → Prop} {E : Err → W → Prop} {D : Prop}
    {e : Err} {w : W} (h : r.Sat Q E D) (hr : r = .err e w) : E e w := by
  subst hr; exact h

theorem Sat.and {r : Res W α} {Q Q' : α → W → Prop} {E E' : Err → W → Prop} {D D' : Prop}
    (h : r.Sat Q E D) (h' : r.Sat Q' E' D') :
    r.Sat (fun a w => Q a w ∧ Q' a w) (fun e w => E e w ∧ E' e w) (D ∧ D') := by
  cases r with
  | ok a w => exact ⟨h, h'⟩
  | err e w => exact ⟨h, h'⟩
  | ub => exact h
  | div => exact ⟨h, h'⟩

end Res

/-! ## Unbounded loops -/

section Loop
variable {W σ : Type}

/-- At most `n` tests of the loop condition; `none` means that more are needed. -/
def whileF (cond : σ → Bool) (body : σ → M W σ) : ℕ → σ → W → Option (Res W σ)
  | 0, _, _ => none
  | n + 1, s, w =>
    if cond s then
      match body s w with
      | .ok s' w' => whileF cond body n s' w'
      | .err e w' => some (.err e w')
      | .ub => some .ub
      | .div => some .div
    else some (.ok s w)

open Classical in
/-- The C++ loop `while( cond(s) ) body(s);`.  The outcome is the outcome of the finitely many iterations
that are needed, and `div` if no finite number of iterations leads to an outcome. -/
noncomputable def whileM (cond : σ → Bool) (body : σ → M W σ) (s : σ) : M W σ := fun w =>
  if h : ∃ n r, whileF cond body n s w = some r then h.choose_spec.choose else .div

theorem whileF_mono {cond : σ → Bool} {body : σ → M W σ} {n m : ℕ} {s : σ} {w : W} {r : Res W σ}
    (h : whileF cond body n s w = some r) (hnm : n ≤ m) : whileF cond body m s w = some r := by
  induction n generalizing m s w with
  | zero => simp [whileF] at h
  | succ n ih =>
    obtain ⟨m, rfl⟩ : ∃ m', m = m' + 1 := ⟨m - 1, by omega⟩
    simp only [whileF] at h ⊢
    split at h
    · rename_i hc
      rw [if_pos hc]
      cases hb : body s w with
      | ok s' w' => rw [hb] at h; exact ih h (by omega)
      | err e w' => rw [hb] at h; exact h
      | ub => rw [hb] at h; exact h
      | div => rw [hb] at h; exact h
    · rename_i hc
      rw [if_neg hc]; exact h

theorem whileM_eq_of_whileF {cond : σ → Bool} {body : σ → M W σ} {n : ℕ} {s : σ} {w : W}
    {r : Res W σ} (h : whileF cond body n s w = some r) : whileM cond body s w = r := by
  have hex : ∃ n r, whileF cond body n s w = some r := ⟨n, r, h⟩
  have h1 : whileM cond body s w = hex.choose_spec.choose := by
    unfold whileM; rw [dif_pos hex]
  rw [h1]
  have hspec := hex.choose_spec.choose_spec
  have a1 := whileF_mono hspec (Nat.le_max_left hex.choose n)
  have a2 := whileF_mono h (Nat.le_max_right hex.choose n)
  rw [a1] at a2
  exact Option.some.inj a2

theorem whileM_div_or {cond : σ → Bool} {body : σ → M W σ} (s : σ) (w : W) :
    (∃ n, whileF cond body n s w = some (whileM cond body s w)) ∨
      ((∀ n, whileF cond body n s w = none) ∧ whileM cond body s w = .div) := by
  by_cases h : ∃ n r, whileF cond body n s w = some r
  · obtain ⟨n, r, hr⟩ := h
    left; exact ⟨n, by rw [whileM_eq_of_whileF hr]; exact hr⟩
  · right
    refine ⟨?_, by unfold whileM; rw [dif_neg h]⟩
    intro n
    cases hn : whileF cond body n s w with
    | none => rfl
    | some r => exact absurd ⟨n, r, hn⟩ h

/-- The loop is a fixed point of its one-iteration unfolding. -/
theorem whileM_unfold (cond : σ → Bool) (body : σ → M W σ) (s : σ) :
    whileM cond body s = if cond s then (body s >>= whileM cond body) else pure s := by
  funext w
  by_cases hc : cond s = true
  · rw [if_pos hc, M.bind_apply]
    cases hb : body s w with
    | ok s' w' =>
      simp only
      rcases whileM_div_or (cond := cond) (body := body) s' w' with ⟨n, hn⟩ | ⟨hn, hd⟩
      · apply whileM_eq_of_whileF (n := n + 1)
        simp only [whileF, if_pos hc, hb]; exact hn
      · rw [hd]
        rcases whileM_div_or (cond := cond) (body := body) s w with ⟨m, hm⟩ | ⟨_, hd'⟩
        · cases m with
          | zero => simp [whileF] at hm
          | succ m =>
            simp only [whileF, if_pos hc, hb, hn m] at hm
            exact absurd hm (by simp)
        · exact hd'
    | err e w' => apply whileM_eq_of_whileF (n := 1); simp [whileF, hc, hb]
    | ub => apply whileM_eq_of_whileF (n := 1); simp [whileF, hc, hb]
    | div => apply whileM_eq_of_whileF (n := 1); simp [whileF, hc, hb]
  · rw [if_neg hc]
    apply whileM_eq_of_whileF (n := 1)
    simp only [whileF, if_neg hc]; rfl

theorem whileM_true {cond : σ → Bool} {body : σ → M W σ} {s : σ} (h : cond s = true) :
    whileM cond body s = (body s >>= whileM cond body) := by
  rw [whileM_unfold, if_pos h]

theorem whileM_false {cond : σ → Bool} {body : σ → M W σ} {s : σ} (h : cond s = false) :
    whileM cond body s = pure s := by
  rw [whileM_unfold, if_neg (by simp [h])]

theorem whileM_step_ok {cond : σ → Bool} {body : σ → M W σ} {s s' : σ} {w w' : W}
    (h : cond s = true) (hb : body s w = .ok s' w') :
    whileM cond body s w = whileM cond body s' w' := by
  rw [whileM_true h, M.bind_ok hb]

theorem whileM_step_err {cond : σ → Bool} {body : σ → M W σ} {s : σ} {w w' : W} {e : Err}
    (h : cond s = true) (hb : body s w = .err e w') :
    whileM cond body s w = .err e w' := by
  rw [whileM_true h, M.bind_err hb]

theorem whileM_stop {cond : σ → Bool} {body : σ → M W σ} {s : σ} {w : W}
    (h : cond s = false) : whileM cond body s w = .ok s w := by
  rw [whileM_false h]; rfl

/-- If every state satisfying an invariant has a next iteration that again satisfies it, the loop
does not return. -/
theorem whileM_div {cond : σ → Bool} {body : σ → M W σ} (I : σ → W → Prop)
    (h : ∀ s w, I s w → cond s = true ∧ ∃ s' w', body s w = .ok s' w' ∧ I s' w')
    {s : σ} {w : W} (h0 : I s w) : whileM cond body s w = .div := by
  have key : ∀ n s w, I s w → whileF cond body n s w = none := by
    intro n
    induction n with
    | zero => intros; rfl
    | succ n ih =>
      intro s w hI
      obtain ⟨hc, s', w', hb, hI'⟩ := h s w hI
      simp only [whileF, if_pos hc, hb]
      exact ih _ _ hI'
  rcases whileM_div_or (cond := cond) (body := body) s w with ⟨n, hn⟩ | ⟨_, hd⟩
  · rw [key n s w h0] at hn; simp at hn
  · exact hd

/-- Partial correctness rule: an invariant of the body is an invariant of the loop. -/
theorem whileM_sat {cond : σ → Bool} {body : σ → M W σ} (I : σ → W → Prop) {E : Err → W → Prop}
    (hbody : ∀ s w, I s w → cond s = true → (body s w).Sat I E True) {s : σ} {w : W} (h0 : I s w) :
    (whileM cond body s w).Sat (fun s' w' => I s' w' ∧ cond s' = false) E True := by
  rcases whileM_div_or (cond := cond) (body := body) s w with ⟨n, hn⟩ | ⟨_, hd⟩
  · revert hn
    generalize whileM cond body s w = r
    induction n generalizing s w with
    | zero => intro hn; simp [whileF] at hn
    | succ n ih =>
      intro hn
      simp only [whileF] at hn
      split at hn
      · rename_i hc
        have hb := hbody s w h0 hc
        cases hbe : body s w with
        | ok s' w' => rw [hbe] at hn hb; exact ih hb hn
        | err e w' => rw [hbe] at hn hb; cases hn; exact hb
        | ub => rw [hbe] at hb; exact absurd hb id
        | div => rw [hbe] at hn; cases hn; trivial
      · rename_i hc
        cases hn
        exact ⟨h0, by simpa using hc⟩
  · rw [hd]; trivial

/-- Total correctness rule: in addition a natural number decreases with every iteration. -/
theorem whileM_sat_total {cond : σ → Bool} {body : σ → M W σ} (I : σ → W → Prop)
    {E : Err → W → Prop} {D : Prop} (μ : σ → W → ℕ)
    (hbody : ∀ s w, I s w → cond s = true →
      (body s w).Sat (fun s' w' => I s' w' ∧ μ s' w' < μ s w) E D)
    {s : σ} {w : W} (h0 : I s w) :
    (whileM cond body s w).Sat (fun s' w' => I s' w' ∧ cond s' = false) E D := by
  induction hk : μ s w using Nat.strong_induction_on generalizing s w with
  | _ k ih =>
    by_cases hc : cond s = true
    · rw [whileM_true hc]
      apply Res.Sat.bind
      refine (hbody s w h0 hc).mono ?_ (fun _ _ h => h) (fun h => h)
      rintro s' w' ⟨hI, hlt⟩
      exact ih _ (hk ▸ hlt) hI rfl
    · have hc' : cond s = false := by simpa using hc
      rw [whileM_false hc']
      exact ⟨h0, hc'⟩

end Loop

/-! ## Simulation of two computations -/

section Sim
variable {W W' α α' σ σ' : Type}

/-- Two outcomes correspond: both return related values and worlds, both throw the same exception in
related worlds, both have undefined behaviour, or both diverge. -/
def Res.Rel (R : α → α' → W → W' → Prop) (RE : W → W' → Prop) : Res W α → Res W' α' → Prop
  | .ok a w, .ok a' w' => R a a' w w'
  | .err e w, .err e' w' => e = e' ∧ RE w w'
  | .ub, .ub => True
  | .div, .div => True
  | _, _ => False

theorem Res.Rel.bind {β β' : Type} {m : M W α} {m' : M W' α'} {f : α → M W β} {f' : α' → M W' β'}
    {w : W} {w' : W'} {R : α → α' → W → W' → Prop} {S : β → β' → W → W' → Prop}
    {RE : W → W' → Prop}
    (h : Res.Rel R RE (m w) (m' w'))
    (hf : ∀ a a' w w', R a a' w w' → Res.Rel S RE (f a w) (f' a' w')) :
    Res.Rel S RE ((m >>= f) w) ((m' >>= f') w') := by
  rw [M.bind_apply, M.bind_apply]
  cases hm : m w <;> cases hm' : m' w' <;> rw [hm, hm'] at h <;>
    first | exact hf _ _ _ _ h | exact h | exact absurd h id

theorem Res.Rel.mono {r : Res W α} {r' : Res W' α'} {R R' : α → α' → W → W' → Prop}
    {RE RE' : W → W' → Prop}
    (h : Res.Rel R RE r r') (hR : ∀ a a' w w', R a a' w w' → R' a a' w w')
    (hE : ∀ w w', RE w w' → RE' w w') : Res.Rel R' RE' r r' := by
  cases r <;> cases r' <;> first | exact hR _ _ _ _ h | exact ⟨h.1, hE _ _ h.2⟩ | exact h

theorem whileM_rel {cond : σ → Bool} {body : σ → M W σ} {cond' : σ' → Bool} {body' : σ' → M W' σ'}
    (R : σ → σ' → W → W' → Prop) (RE : W → W' → Prop)
    (hc : ∀ s s' w w', R s s' w w' → cond s = cond' s')
    (hb : ∀ s s' w w', R s s' w w' → cond s = true → Res.Rel R RE (body s w) (body' s' w'))
    {s : σ} {s' : σ'} {w : W} {w' : W'} (h0 : R s s' w w') :
    Res.Rel R RE (whileM cond body s w) (whileM cond' body' s' w') := by
  have key : ∀ n s s' w w', R s s' w w' →
      (∃ r r', whileF cond body n s w = some r ∧ whileF cond' body' n s' w' = some r' ∧
        Res.Rel R RE r r') ∨
      (whileF cond body n s w = none ∧ whileF cond' body' n s' w' = none) := by
    intro n
    induction n with
    | zero => intros; right; exact ⟨rfl, rfl⟩
    | succ n ih =>
      intro s s' w w' hR
      simp only [whileF, ← hc _ _ _ _ hR]
      by_cases hcs : cond s = true
      · simp only [hcs, if_true]
        have := hb _ _ _ _ hR hcs
        cases h1 : body s w <;> cases h2 : body' s' w' <;> rw [h1, h2] at this <;>
          first
          | exact ih _ _ _ _ this
          | exact absurd this id
          | exact Or.inl ⟨_, _, rfl, rfl, this⟩
      · left
        simp only [hcs]
        exact ⟨_, _, rfl, rfl, hR⟩
  rcases whileM_div_or (cond := cond) (body := body) s w with ⟨n, hn⟩ | ⟨hn, hd⟩
  · rcases key n s s' w w' h0 with ⟨r, r', h1, h2, h3⟩ | ⟨h1, _⟩
    · rw [whileM_eq_of_whileF h1, whileM_eq_of_whileF h2]; exact h3
    · rw [h1] at hn; simp at hn
  · rcases whileM_div_or (cond := cond') (body := body') s' w' with ⟨n, hn'⟩ | ⟨_, hd'⟩
    · rcases key n s s' w w' h0 with ⟨r, r', h1, _, _⟩ | ⟨_, h2⟩
      · rw [hn n] at h1; simp at h1
      · rw [h2] at hn'; simp at hn'
    · rw [hd, hd']; trivial

end Sim

end Verif
