import Verif.Lemmas.FsalHistory
import Mathlib.Tactic.NormNum
import Mathlib.Algebra.Order.Field.Rat

/-!
# C29: the cached derivative of a FSAL stepper is not observable

`runge_kutta_dopri5` keeps the derivative at the end of a step for the next one.  As long as every call starts
from the state and time where the previous one ended, this caching cannot be noticed (except that fewer
evaluations are needed); if the state is changed behind the stepper's back, it can.
-/

set_option linter.unusedSectionVars false

namespace Verif
variable {K V : Type} [Add K] [Sub K] [Mul K] [Div K] [IntCast K] [StateOps K V]

/-- C29: for every right-hand side `f`, every history of calls (all overloads, in any order, with any step sizes
and resize events) and every arithmetic, the states, times and error estimates the user sees after each call are
those of the run in which the derivative is evaluated afresh for every call.  A new stepper has
`m_first_call = true`, for which `CacheValid` holds trivially. -/
theorem fsal_transparent (f : V → K → V) (l : List (FsalCall K V)) :
    ∀ (x : ℕ) (t : K) (h h₀ : Heap K V ℕ), CacheValid f x t h →
      (∀ n, h₀.state (ustate n) = h.state (ustate n)) → (∀ n, h₀.state (uerr n) = h.state (uerr n)) →
      ∃ trace h' h₀', runCalls f x t l h = .ok trace h' ∧ runFresh f x t l h₀ = .ok trace h₀' := by
  induction l with
  | nil => intro x t h h₀ _ _ _; exact ⟨[], h, h₀, rfl, rfl⟩
  | cons c cs ih =>
    intro x t h h₀ hv hs he
    obtain ⟨S, E, x', t', H⟩ := call_run f c x t (fun n => h.state (ustate n)) (fun n => h.state (uerr n))
    obtain ⟨h1, a1, a2, a3, a4⟩ := H h (fun _ => rfl) (fun _ => rfl) hv
    obtain ⟨g1, b1, b2, b3, b4⟩ := H (h₀.putFlag mFirstCall true) hs he (fun hf => by simp at hf)
    obtain ⟨tr, h', h₀', c1, c2⟩ := ih x' t' h1 g1 a4 (fun n => by rw [a2, b2]) (fun n => by rw [a3, b3])
    have eS : (fun n => h1.state (ustate n)) = S := funext a2
    have eE : (fun n => h1.state (uerr n)) = E := funext a3
    have eS' : (fun n => g1.state (ustate n)) = S := funext b2
    have eE' : (fun n => g1.state (uerr n)) = E := funext b3
    refine ⟨(S, E, t') :: tr, h', h₀', ?_, ?_⟩
    · simp only [runCalls, M.bind_apply, a1, c1, eS, eE, M.pure_apply]
    · simp only [runFresh, M.bind_apply, fsalReset, setFlag, b1, c2, eS', eE', M.pure_apply]

/-- A new stepper (`m_first_call = true`) satisfies the hypothesis of `fsal_transparent`. -/
example (f : V → K → V) (x : ℕ) (t : K) (h : Heap K V ℕ) (l : List (FsalCall K V)) :
    ∃ trace h' h₀', runCalls f x t l (h.putFlag mFirstCall true) = .ok trace h' ∧
      runFresh f x t l (h.putFlag mFirstCall true) = .ok trace h₀' :=
  fsal_transparent f l x t _ _ (fun hf => by simp at hf) (fun _ => rfl) (fun _ => rfl)

/-- C29: after every history the cached derivative, if there is one, is the right-hand side at the state and time
reached. -/
theorem fsal_cache_valid (f : V → K → V) (c : FsalCall K V) (x : ℕ) (t : K) (h : Heap K V ℕ)
    (hv : CacheValid f x t h) :
    ∃ x' t' h', c.run f x t h = .ok (x', t') h' ∧ CacheValid f x' t' h' := by
  obtain ⟨S, E, x', t', H⟩ := call_run f c x t (fun n => h.state (ustate n)) (fun n => h.state (uerr n))
  obtain ⟨h1, a1, a2, a3, a4⟩ := H h (fun _ => rfl) (fun _ => rfl) hv
  exact ⟨x', t', h1, a1, a4⟩

/-- What the caching is for: `n` consecutive steps of a new stepper evaluate the right-hand side `6 n + 1` times. -/
theorem fsal_evaluations (f : V → K → V) (dt : K) (x n : ℕ) :
    ∀ (t : K) (h : Heap K V ℕ),
      ∃ tr h', runCalls f x t (List.replicate n (.step false dt)) h = .ok tr h' ∧
        h'.world = h.world + 6 * n + (if h.flag mFirstCall ∧ 0 < n then 1 else 0) := by
  induction n with
  | zero => intro t h; exact ⟨[], h, rfl, by simp⟩
  | succ n ih =>
    intro t h
    have key : ∃ h1, (FsalCall.step false dt : FsalCall K V).run f x t h = .ok (x, t + dt) h1 ∧
        h1.flag mFirstCall = false ∧ h1.world = h.world + 6 + (if h.flag mFirstCall then 1 else 0) := by
      have prep : ∃ g k, fsalPrepare false (countSys f) (ustate x) t h = .ok () g ∧ g.state mDxdt = k ∧
          g.flag mFirstCall = false ∧ g.world = h.world + (if h.flag mFirstCall then 1 else 0) := by
        unfold fsalPrepare getFlag
        rw [M.bind_apply]
        by_cases hc : h.flag mFirstCall = true
        · simp only [hc, Bool.or_true, if_true]
          exact ⟨(h.put mDxdt (f (h.state (ustate x)) t) (h.world + 1)).putFlag mFirstCall false, _, rfl, rfl,
            by simp, by simp⟩
        · simp only [hc, Bool.or_self, Bool.false_eq_true, if_false]
          exact ⟨h, _, rfl, rfl, by simpa using hc, rfl⟩
      obtain ⟨g, k, g1, g2, g3, g4⟩ := prep
      have H := dopri5_implements (countSys f) (ustate x) mDxdt (ustate x) mDxdt t dt g (not_owned_ustate _ _)
        not_owned_dxdt (not_owned_ustate _ _) not_owned_dxdt (ustate_ne_dxdt _)
      obtain ⟨r, hr, hk⟩ := dopri5_val f (g.state (ustate x)) (g.state mDxdt) t dt
      unfold Implements at H
      rw [hr] at H
      obtain ⟨h', a1, a2, a3⟩ := H
      refine ⟨h', ?_, ?_, ?_⟩
      · simp only [FsalCall.run, fsalStep1, M.bind_apply, g1, a1, M.pure_apply]
      · rw [(a3 _ not_owned_first).2.2.1]; simp [g3]
      · rw [a2, g4]; omega
    obtain ⟨h1, k1, k2, k3⟩ := key
    obtain ⟨tr, h', c1, c2⟩ := ih (t + dt) h1
    refine ⟨(fun n => h1.state (ustate n), fun n => h1.state (uerr n), t + dt) :: tr, h', ?_, ?_⟩
    · simp only [List.replicate_succ, runCalls, M.bind_apply, k1, c1, M.pure_apply]
    · rw [c2, k2, k3]
      by_cases hc : h.flag mFirstCall = true <;> simp [hc] <;> omega

/-- The right-hand side of `x' = x`. -/
def expRhs : ℚ → ℚ → ℚ := fun x _ => x

/-- The hypothesis of C29 is needed: for `x' = x`, after one step, assigning a new state without `reset()` makes the
next step use the derivative of the old state.  (The two runs differ: a step from `0` must stay at `0`.) -/
theorem fsal_stale_cache :
    ∃ h : Heap ℚ ℚ ℕ, ¬ CacheValid expRhs 0 1 h ∧ h.state (ustate 0) = 0 ∧
      ∃ h' h'' : Heap ℚ ℚ ℕ,
        fsalStep1 dopri5Impl false (countSys expRhs) (ustate 0) 1 1 h = .ok () h' ∧
        fsalStep1 dopri5Impl false (countSys expRhs) (ustate 0) 1 1 (h.putFlag mFirstCall true) = .ok () h'' ∧
        h'.state (ustate 0) ≠ 0 ∧ h''.state (ustate 0) = 0 := by
  let h : Heap ℚ ℚ ℕ := ⟨fun l => if l = mDxdt then 1 else 0, fun _ => 0, fun _ => false, fun _ => 0, 0⟩
  have key : ∀ g : Heap ℚ ℚ ℕ, g.flag mFirstCall = false → g.state (ustate 0) = 0 →
      ∃ g', fsalStep1 dopri5Impl false (countSys expRhs) (ustate 0) 1 1 g = .ok () g' ∧
        ∃ r, (∀ w, dopri5Step (countSys expRhs) 0 (g.state mDxdt) 1 1 w = .ok r (w + 6)) ∧
        g'.state (ustate 0) = r.x := by
    intro g g1 g2
    obtain ⟨r, hr, -⟩ := dopri5_val expRhs 0 (g.state mDxdt) 1 1
    have H := dopri5_implements (countSys expRhs) (ustate 0) mDxdt (ustate 0) mDxdt (1 : ℚ) 1 g
      (not_owned_ustate _ _) not_owned_dxdt (not_owned_ustate _ _) not_owned_dxdt (ustate_ne_dxdt _)
    unfold Implements at H
    rw [g2, hr] at H
    obtain ⟨h', a1, a2, a3⟩ := H
    refine ⟨h', ?_, r, hr, ?_⟩
    · simp only [fsalStep1, fsalPrepare, getFlag, M.bind_apply, g1, Bool.or_self, Bool.false_eq_true, if_false,
        M.pure_apply, a1]
    · rw [(a3 _ (not_owned_ustate _ 0)).1]
      simp [Heap.set_state_apply, ustate_ne_dxdt]
  have val : ∀ k : ℚ, ∃ r : Dopri5Result ℚ, (∀ w, dopri5Step (countSys expRhs) 0 k 1 1 w = .ok r (w + 6)) ∧
      r.x = k * (10697 / 43200) := by
    intro k
    refine ⟨_, fun _ => rfl, ?_⟩
    simp [lin, lit, frac, expRhs]
    ring
  refine ⟨h, ?_, ?_, ?_⟩
  · intro hc
    have := hc rfl
    simp [h, ustate_ne_dxdt, expRhs] at this
  · simp [h, ustate_ne_dxdt]
  · obtain ⟨h', a1, r, a2, a3⟩ := key h rfl (by simp [h, ustate_ne_dxdt])
    obtain ⟨r₁, b1, b2⟩ := val 1
    obtain ⟨g', c1, s, c2, c3⟩ := key ((h.put mDxdt 0 1).putFlag mFirstCall false) (by simp)
      (by simp [h, Heap.put_state_apply, ustate_ne_dxdt])
    obtain ⟨r₀, d1, d2⟩ := val 0
    have hd : h.state mDxdt = 1 := by simp [h]
    refine ⟨h', g', a1, ?_, ?_, ?_⟩
    · rw [← c1]
      simp [fsalStep1, fsalPrepare, getFlag, M.bind_apply, fsalInitialize, callSys, countSys, setFlag, h, expRhs, ustate_ne_dxdt,
        Heap.putFlag, Heap.put, Function.update_idem]
      rfl
    · have := a2 0
      rw [hd, b1] at this
      simp only [Res.ok.injEq, and_true] at this
      rw [a3, ← this, b2]; norm_num
    · have := c2 0
      rw [show ((h.put mDxdt 0 1).putFlag mFirstCall false).state mDxdt = 0 from by simp, d1] at this
      simp only [Res.ok.injEq, and_true] at this
      rw [c3, ← this, d2]; norm_num

end Verif
