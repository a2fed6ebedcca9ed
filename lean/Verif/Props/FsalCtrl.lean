import Verif.Props.ControlledRk
import Verif.Spec.FsalCtrl
import Verif.Props.Fsal

/-!
# C29: the cached derivative of a controlled FSAL stepper is not observable
-/

set_option linter.unusedSectionVars false

namespace Verif
variable {K V : Type} [Add K] [Sub K] [Mul K] [Div K] [Neg K] [IntCast K] [StateOps K V]

theorem fsalTrial_val (P : CtrlParams K V) (f : V → K → V) (x k : V) (t dt : K) :
    ∃ (tr : Trial K (V × V)) (n : ℕ), (∀ w, fsalTrial P dopri5ErrStep (countSys f) x k t dt w = .ok tr (w + n)) ∧
      ∀ y err dt', tr = .accepted y err dt' → y.2 = f y.1 (t + dt) := by
  obtain ⟨r, hr, hk⟩ := dopri5_val f x k t dt
  by_cases hc : P.adjuster.checkStepSizeLimit dt = false
  · exact ⟨.limited P.adjuster.maxDt, 0, fun w => by unfold fsalTrial; rw [if_pos hc]; rfl, by simp⟩
  · by_cases hg : P.gtOne (P.checker.error x k (dopri5Error k dt r) dt).2 = true
    · refine ⟨.rejected (r.x, r.k7) (P.checker.error x k (dopri5Error k dt r) dt).2
        (P.adjuster.decreaseStep dt (P.checker.error x k (dopri5Error k dt r) dt).2 P.errorOrder), 6,
        fun w => ?_, by simp⟩
      unfold fsalTrial
      rw [if_neg hc, M.bind_apply]
      simp only [dopri5ErrStep, M.bind_apply, hr, M.pure_apply]
      rw [if_pos hg]
      rfl
    · refine ⟨.accepted (r.x, r.k7) (P.checker.error x k (dopri5Error k dt r) dt).2
        (P.adjuster.increaseStep dt (P.checker.error x k (dopri5Error k dt r) dt).2 P.stepperOrder), 6,
        fun w => ?_, ?_⟩
      · unfold fsalTrial
        rw [if_neg hc, M.bind_apply]
        simp only [dopri5ErrStep, M.bind_apply, hr, M.pure_apply]
        rw [if_neg hg]
        rfl
      · intro y err dt' e
        cases e
        exact hk

theorem ctrl_try_run (P : CtrlParams K V) (f : V → K → V) (x : ℕ) (t dt : K) (v : V) :
    ∃ (v' : V) (o : TryOut K), ∀ h : Heap K V ℕ, h.state (.user x) = v → h.state mCtrlDxdt = f v t →
      h.flag mCtrlFirst = false →
      ∃ h', fsalTry3 P dopri5ErrImpl (countSys f) (.user x) mCtrlDxdt t dt h = .ok o h' ∧
        h'.state (.user x) = v' ∧ h'.flag mCtrlFirst = false ∧ h'.state mCtrlDxdt = f v' o.t := by
  obtain ⟨tr, n, htr, hacc⟩ := fsalTrial_val P f v (f v t) t dt
  have nx : Loc.user x ≠ mCtrlDxdt := by simp [mCtrlDxdt]
  have nd : ¬ mCtrlDxdt.ownedBy ctrlOwners := by simp [mCtrlDxdt, Loc.ownedBy]
  have nf : ¬ mCtrlFirst.ownedBy ctrlOwners := by simp [mCtrlFirst, Loc.ownedBy]
  have H : ∀ h : Heap K V ℕ, h.state (.user x) = v → h.state mCtrlDxdt = f v t →
      ∃ h', fsalTry3 P dopri5ErrImpl (countSys f) (.user x) mCtrlDxdt t dt h = .ok (tr.out t dt) h' ∧
        ∀ l, ¬ l.ownedBy ctrlOwners → (h.setAll (tr.inPlaceFsal (.user x) mCtrlDxdt)).SameAt h' l := by
    intro h h1 h2
    have C := fsalTry3_computes P dopri5ErrImpl dopri5ErrStep (countSys f) (.user x) mCtrlDxdt t dt h
      (ownedBy_user _ _) nd
      (fsalErr_val (countSys f) _ _ _ _ t dt h (ownedBy_user _ _) nd (by simp [mXnew, Loc.ownedBy])
        (by simp [mDxdtNew, Loc.ownedBy]) (by simp [mXnew, mDxdtNew]) (by simp [mXnew, mCtrlDxdt]))
    unfold Computes at C
    rw [h1, h2, htr] at C
    obtain ⟨h', a1, -, a3⟩ := C
    exact ⟨h', a1, a3⟩
  cases tr with
  | limited dt' =>
    refine ⟨v, ⟨false, t, dt'⟩, fun h h1 h2 h3 => ?_⟩
    obtain ⟨h', a1, a3⟩ := H h h1 h2
    exact ⟨h', a1, (a3 _ (ownedBy_user _ _)).1.trans h1, (a3 _ nf).2.2.1.trans h3, (a3 _ nd).1.trans h2⟩
  | rejected y e dt' =>
    refine ⟨v, ⟨false, t, dt'⟩, fun h h1 h2 h3 => ?_⟩
    obtain ⟨h', a1, a3⟩ := H h h1 h2
    exact ⟨h', a1, (a3 _ (ownedBy_user _ _)).1.trans h1, (a3 _ nf).2.2.1.trans h3, (a3 _ nd).1.trans h2⟩
  | accepted y e dt' =>
    refine ⟨y.1, ⟨true, t + dt, dt'⟩, fun h h1 h2 h3 => ?_⟩
    obtain ⟨h', a1, a3⟩ := H h h1 h2
    refine ⟨h', a1, ?_, (a3 _ nf).2.2.1.trans (by simpa [Trial.inPlaceFsal] using h3), ?_⟩
    · rw [(a3 _ (ownedBy_user _ _)).1]; simp [Trial.inPlaceFsal, Heap.set_state_apply, nx]
    · rw [(a3 _ nd).1]
      simp only [Trial.inPlaceFsal, Heap.setAll_cons, Heap.setAll_nil, Heap.set_state_self]
      exact hacc y e dt' rfl

theorem ctrl_call_run (P : CtrlParams K V) (f : V → K → V) (c : CtrlCall K V) (x : ℕ) (t : K) (v : V) :
    ∃ (v' : V) (t' : K) (o : Option (TryOut K)), ∀ h : Heap K V ℕ, h.state (.user x) = v → CtrlCacheValid f x t h →
      ∃ h', c.run P f x t h = .ok (t', o) h' ∧ h'.state (.user x) = v' ∧ CtrlCacheValid f x t' h' := by
  have nx : Loc.user x ≠ mCtrlDxdt := by simp [mCtrlDxdt]
  have init : ∀ (t : K) (h : Heap K V ℕ), ∃ h', fsalCtrlInitialize (countSys f) (.user x) t h = .ok () h' ∧
      h'.state (.user x) = h.state (.user x) ∧ h'.state mCtrlDxdt = f (h.state (.user x)) t ∧
      h'.flag mCtrlFirst = false := by
    intro t h
    refine ⟨(h.put mCtrlDxdt (f (h.state (.user x)) t) (h.world + 1)).putFlag mCtrlFirst false, rfl, ?_, ?_, ?_⟩
    · simp [Heap.put_state_apply, nx]
    · simp
    · simp
  cases c with
  | tryStep r dt =>
    obtain ⟨v', o, H⟩ := ctrl_try_run P f x t dt v
    refine ⟨v', o.t, some o, fun h hx hv => ?_⟩
    have prep : ∃ g, (do if r || (← getFlag mCtrlFirst) then fsalCtrlInitialize (countSys f) (.user x) t :
        StepM K V ℕ Unit) h = .ok () g ∧ g.state (.user x) = v ∧ g.state mCtrlDxdt = f v t ∧
        g.flag mCtrlFirst = false := by
      simp only [getFlag, M.bind_apply]
      by_cases hc : (r || h.flag mCtrlFirst) = true
      · simp only [hc, if_true]
        obtain ⟨g, g1, g2, g3, g4⟩ := init t h
        exact ⟨g, g1, g2.trans hx, by rw [g3, hx], g4⟩
      · simp only [hc, Bool.false_eq_true, if_false]
        simp only [Bool.or_eq_true, not_or, Bool.not_eq_true] at hc
        exact ⟨h, rfl, hx, by rw [hv hc.2, hx], hc.2⟩
    obtain ⟨g, g1, g2, g3, g4⟩ := prep
    obtain ⟨h', a1, a2, a3, a4⟩ := H g g2 g3 g4
    refine ⟨h', ?_, a2, fun _ => by rw [a4, a2]⟩
    have e : fsalTry1 P dopri5ErrImpl r (countSys f) (.user x) t dt h = .ok o h' := by
      have : fsalTry1 P dopri5ErrImpl r (countSys f) (.user x) t dt =
          ((do if r || (← getFlag mCtrlFirst) then fsalCtrlInitialize (countSys f) (.user x) t :
            StepM K V ℕ Unit) >>= fun _ => fsalTry3 P dopri5ErrImpl (countSys f) (.user x) mCtrlDxdt t dt) := by
        unfold fsalTry1
        rw [bind_assoc]
        congr 1
        funext b
        split <;> simp
      rw [this, M.bind_apply, g1]
      exact a1
    simp only [CtrlCall.run, M.bind_apply, e]
    rfl
  | init =>
    refine ⟨v, t, none, fun h hx hv => ?_⟩
    obtain ⟨g, g1, g2, g3, g4⟩ := init t h
    exact ⟨g, by simp only [CtrlCall.run, M.bind_apply, g1]; rfl, g2.trans hx, fun _ => by rw [g3, g2]⟩
  | reset =>
    exact ⟨v, t, none, fun h hx hv => ⟨h.putFlag mCtrlFirst true, rfl, hx, fun hf => by simp at hf⟩⟩
  | restart v' t' =>
    exact ⟨v', t', none, fun h hx hv => ⟨(h.set (.user x) v').putFlag mCtrlFirst true, rfl, by simp,
      fun hf => by simp at hf⟩⟩
  | restartInit v' t' =>
    refine ⟨v', t', none, fun h hx hv => ?_⟩
    obtain ⟨g, g1, g2, g3, g4⟩ := init t' (h.set (.user x) v')
    exact ⟨g, by simp only [CtrlCall.run, M.bind_apply, g1]; rfl, g2.trans (by simp), fun _ => by rw [g3, g2]⟩

/-- C29 for `controlled_runge_kutta< runge_kutta_dopri5 >`: for every right-hand side, error checker, step adjuster
and history of calls (with any step sizes, accepted or rejected tries, resize events, resets, new initial values)
the results, times and states the user sees are those of the run that evaluates the derivative afresh in every
call. -/
theorem fsal_ctrl_transparent (P : CtrlParams K V) (f : V → K → V) (x : ℕ) (l : List (CtrlCall K V)) :
    ∀ (t : K) (h h₀ : Heap K V ℕ), CtrlCacheValid f x t h → h₀.state (.user x) = h.state (.user x) →
      ∃ trace h' h₀', runCtrl P f x t l h = .ok trace h' ∧ runCtrlFresh P f x t l h₀ = .ok trace h₀' := by
  induction l with
  | nil => intro t h h₀ _ _; exact ⟨[], h, h₀, rfl, rfl⟩
  | cons c cs ih =>
    intro t h h₀ hv hs
    obtain ⟨v', t', o, H⟩ := ctrl_call_run P f c x t (h.state (.user x))
    obtain ⟨h1, a1, a2, a3⟩ := H h rfl hv
    obtain ⟨g1, b1, b2, b3⟩ := H (h₀.putFlag mCtrlFirst true) hs (fun hf => by simp at hf)
    obtain ⟨tr, h', h₀', c1, c2⟩ := ih t' h1 g1 a3 (by rw [a2, b2])
    refine ⟨(o, t', v') :: tr, h', h₀', ?_, ?_⟩
    · simp only [runCtrl, M.bind_apply, a1, c1, a2, M.pure_apply]
    · simp only [runCtrlFresh, M.bind_apply, fsalCtrlReset, setFlag, b1, c2, b2, M.pure_apply]

/-- A new controlled stepper (`m_first_call = true`) satisfies the hypothesis of `fsal_ctrl_transparent`. -/
example (P : CtrlParams K V) (f : V → K → V) (x : ℕ) (l : List (CtrlCall K V)) (t : K) (h : Heap K V ℕ) :
    ∃ trace h' h₀', runCtrl P f x t l (h.putFlag mCtrlFirst true) = .ok trace h' ∧
      runCtrlFresh P f x t l (h.putFlag mCtrlFirst true) = .ok trace h₀' :=
  fsal_ctrl_transparent P f x l t _ _ (fun hf => by simp at hf) rfl

/-- C29: the cached derivative, if there is one, is the right-hand side at the state and time reached. -/
theorem fsal_ctrl_cache_valid (P : CtrlParams K V) (f : V → K → V) (c : CtrlCall K V) (x : ℕ) (t : K)
    (h : Heap K V ℕ) (hv : CtrlCacheValid f x t h) :
    ∃ t' o h', c.run P f x t h = .ok (t', o) h' ∧ CtrlCacheValid f x t' h' := by
  obtain ⟨v', t', o, H⟩ := ctrl_call_run P f c x t (h.state (.user x))
  obtain ⟨h1, a1, a2, a3⟩ := H h rfl hv
  exact ⟨t', o, h1, a1, a3⟩

/-- A limitation: unlike `runge_kutta_dopri5` itself, the controlled stepper does not drop its cached derivative
when a step with a caller-supplied derivative is made.  After such a step has succeeded, the cache is stale: it
still is the derivative from before.  (Here for any right-hand side whose value at the new state differs.) -/
theorem fsal_ctrl_given_stale (P : CtrlParams K V) (f : V → K → V) (x dxdt : ℕ) (t dt : K)
    (h h' : Heap K V ℕ) (r : TryOut K) (hf : h.flag mCtrlFirst = false)
    (hr : fsalTry3 P dopri5ErrImpl (countSys f) (.user x) (.user dxdt) t dt h = .ok r h')
    (hnew : f (h'.state (.user x)) r.t ≠ h.state mCtrlDxdt) :
    ¬ CtrlCacheValid f x r.t h' := by
  have C := fsal_try_step_contract P (countSys f) x dxdt t dt h
  obtain ⟨tr, n, htr, -⟩ := fsalTrial_val P f (h.state (.user x)) (h.state (.user dxdt)) t dt
  unfold Computes at C
  rw [htr] at C
  obtain ⟨g, a1, -, a3⟩ := C
  rw [hr] at a1
  cases a1
  have nd : ¬ mCtrlDxdt.ownedBy ctrlOwners := by simp [mCtrlDxdt, Loc.ownedBy]
  have nf : ¬ mCtrlFirst.ownedBy ctrlOwners := by simp [mCtrlFirst, Loc.ownedBy]
  intro hv
  have e1 : h'.flag mCtrlFirst = false := by
    rw [(a3 _ nf).2.2.1]
    cases tr <;> simpa [Trial.inPlaceFsal] using hf
  have e2 : h'.state mCtrlDxdt = h.state mCtrlDxdt := by
    rw [(a3 _ nd).1]
    cases tr <;> simp [Trial.inPlaceFsal, Heap.set_state_apply, mCtrlDxdt]
  exact hnew ((hv e1).symm.trans e2)

/-- The right-hand side of `x' = t`. -/
def timeRhs : ℚ → ℚ → ℚ := fun _ t => t

/-- A controller that accepts every step. -/
def acceptAll : CtrlParams ℚ ℚ where
  gtOne _ := false
  checker := ⟨fun _ _ e _ => (e, 0)⟩
  adjuster := ⟨fun dt _ _ => dt, fun dt _ _ => dt, fun _ => true, 0⟩
  stepperOrder := 5
  errorOrder := 4

/-- The hypotheses of `fsal_ctrl_given_stale` are met: for `x' = t`, starting at time 0 with a valid cache, the step
with a caller-supplied derivative succeeds and leaves the cache stale. -/
example (h : Heap ℚ ℚ ℕ) (hf : h.flag mCtrlFirst = false) (hc : h.state mCtrlDxdt = 0) :
    CtrlCacheValid timeRhs 0 0 h ∧
    ∃ r h', fsalTry3 acceptAll dopri5ErrImpl (countSys timeRhs) (.user 0) (.user 1) 0 1 h = .ok r h' ∧
      r.success = true ∧ ¬ CtrlCacheValid timeRhs 0 r.t h' := by
  refine ⟨fun _ => hc, ?_⟩
  have C := fsal_try_step_contract acceptAll (countSys timeRhs) 0 1 0 1 h
  obtain ⟨tr, n, htr, -⟩ := fsalTrial_val acceptAll timeRhs (h.state (.user 0)) (h.state (.user 1)) 0 1
  unfold Computes at C
  rw [htr] at C
  obtain ⟨h', a1, -, -⟩ := C
  have hout : tr.out (0 : ℚ) 1 = ⟨true, 0 + 1, 1⟩ := by
    have := htr 0
    injection this with e1 e2
    rw [← e1]
    rfl
  refine ⟨_, h', a1, by rw [hout], fsal_ctrl_given_stale acceptAll timeRhs 0 1 0 1 h h' _ hf a1 ?_⟩
  rw [hout, hc]
  simp [timeRhs]

end Verif
